import Verif.Proofs.PipelineBurden
import Verif.Props.CutoffAllocation
import Verif.Props.Pipeline

/-! Allocation conserves the flows of a dataset, if its results are multiplied with the amounts of the products. -/

namespace Ocelot
open Spec

/-- A linear functional of flows: a number for type, name, compartment and id. -/
abbrev Functional := ExcType → String → Option (String × String) → String → ℚ

/-- What an exchange contributes. Products and dropped products do not count. -/
def contrib (φ : Functional) (e : Exchange) : ℚ :=
  if isProduction e || e.type == .droppedProduct then 0 else φ e.type e.name e.compartment e.id * e.amount

/-- The total of the flows of a dataset. -/
def bur (φ : Functional) (d : Dataset) : ℚ := (d.exchanges.map (contrib φ)).sum

/-- How many units of the product of `o` there are, if `A` gives the amounts. -/
def units (A : String → ℚ) (o : Dataset) : ℚ := ((refs o).map fun e => A e.id).sum / refAmount o

theorem contrib_scaled {φ : Functional} {f : ℚ} {e e' : Exchange} (h : ScaledBy f e e') : contrib φ e' = contrib φ e * f := by
  have h1 := h.prod
  unfold contrib
  rw [h1, h.type, h.name, h.id, h.amount, show e'.compartment = e.compartment by rw [h]]
  split <;> ring

theorem sum_contrib_scaled {φ : Functional} {f : ℚ} {l r : List Exchange} (h : List.Forall₂ (ScaledBy f) l r) :
    (r.map (contrib φ)).sum = (l.map (contrib φ)).sum * f := by
  induction h with
  | nil => simp
  | cons hab _ ih =>
    rw [List.map_cons, List.map_cons, List.sum_cons, List.sum_cons, ih, contrib_scaled hab]
    ring

theorem bur_nonproduction (φ : Functional) (d : Dataset) : bur φ d = ((nonproduction d).map (contrib φ)).sum := by
  unfold bur nonproduction
  induction d.exchanges with
  | nil => rfl
  | cons e l ih =>
    rw [List.map_cons, List.sum_cons, List.filter_cons]
    by_cases h : isProduction e = true
    · simp [h, contrib, ← ih]
    · simp [h, ← ih]

/-- Choosing a product. -/
theorem choose_bur {M : MathEnv} {ds out : Dataset} {x : Exchange} {f : ℚ} (h : chooseReferenceProduct M ds x f = .ok out) (φ : Functional) :
    ∃ n, 0 < n ∧ x.amount ≠ 0 ∧ refAmount out = x.amount * n ∧ (∀ A : String → ℚ, ((refs out).map fun e => A e.id).sum = A x.id) ∧ bur φ out = bur φ ds * (f * n) := by
  obtain ⟨n, hn, hN, h0, hr, -⟩ := choose_burden h
  obtain ⟨h0', hc, n', non, hn', hN', hS, hout⟩ := C11_choose_shape M ds out x f h
  obtain ⟨rp, hrp, -⟩ := C11_choose_reference M ds out x f h
  have hr' := hrp
  rw [hout] at hr'
  unfold refs at hr'
  simp only [List.cons_append] at hr'
  rw [List.filter_cons_of_pos (by rfl)] at hr'
  have hx := (List.cons.inj hr').1
  refine ⟨n', hn', h0, ?_, ?_, ?_⟩
  · unfold refAmount
    rw [hrp, ← hx]
    simp
  · intro A
    rw [hrp, ← hx]
    simp
  · rw [bur_nonproduction φ ds, ← sum_contrib_scaled hS, hout]
    unfold bur
    simp only [List.cons_append, List.map_cons, List.sum_cons, List.map_append, List.sum_append]
    have h1 : contrib φ { x with type := .referenceProduct, uncertainty := none, cls := none, amount := x.amount * n' } = 0 := by
      simp [contrib, isProduction]
    have h2 : ∀ l : List Exchange, ((l.map fun e => { e with type := ExcType.droppedProduct, amount := 0, formula := none, pv := none, uncertainty := none }).map (contrib φ)).sum = 0 := by
      intro l
      induction l with
      | nil => rfl
      | cons e l ih =>
        rw [List.map_cons, List.map_cons, List.sum_cons, ih]
        simp [contrib]
    rw [h1, h2]
    ring

theorem conserve_bur {M : MathEnv} {ds : Dataset} {fs : List ℚ} {prod : List Exchange} {outs : List Dataset} (hl : fs.length = prod.length)
    (h : List.Forall₂ (fun (p : ℚ × Exchange) o => chooseReferenceProduct M ds p.2 p.1 = .ok o) (fs.zip prod) outs) (φ : Functional)
    {A : String → ℚ} (hA : ∀ e ∈ prod, A e.id = e.amount) :
    (outs.map fun o => bur φ o * units A o).sum = fs.sum * bur φ ds := by
  induction prod generalizing fs outs with
  | nil =>
    rcases fs with _ | ⟨f, fs⟩
    · cases h; simp
    · simp at hl
  | cons p prod ih =>
    rcases fs with _ | ⟨f, fs⟩
    · simp at hl
    · rw [List.zip_cons_cons] at h
      cases h with
      | @cons _ o _ outs' h1 h2 =>
        simp only [List.map_cons, List.sum_cons]
        rw [ih (by simpa using hl) h2 fun e he => hA e (by simp [he])]
        obtain ⟨n, hn, h0, hr, hi, hb⟩ := choose_bur h1 φ
        simp only at hr hb h0 hi
        unfold units
        rw [hr, hb, hi A, hA p (by simp)]
        field_simp

theorem economic_bur {M : MathEnv} {d : Dataset} {outs : List Dataset} (h : economicAllocation M d = .ok outs) (φ : Functional)
    {A : String → ℚ} (hA : ∀ e ∈ production d, A e.id = e.amount) : (outs.map fun o => bur φ o * units A o).sum = bur φ d := by
  obtain ⟨-, -, fs, hf, hl, hF⟩ := economicAllocation_inv h
  rw [conserve_bur hl hF φ hA, economicFactors_sum hf, one_mul]

theorem recycling_contrib {M : MathEnv} {l ex : List Exchange} (h : mapE (recyclingInput M) l = .ok ex) (φ : Functional)
    (hφ : ∀ e ∈ l, e.type = .referenceProduct → φ .fromTechnosphere e.name e.compartment e.id = 0) :
    (ex.map (contrib φ)).sum = (l.map (contrib φ)).sum := by
  induction l generalizing ex with
  | nil => cases h; rfl
  | cons a l ih =>
    obtain ⟨b, r', hb, hr', rfl⟩ := mapE_cons_ok.mp h
    rw [List.map_cons, List.map_cons, List.sum_cons, List.sum_cons, ih hr' fun e he => hφ e (by simp [he])]
    congr 1
    rcases recyclingInput_inv hb with ⟨ht, hs⟩ | ⟨ht, rfl⟩
    · rw [contrib_scaled hs]
      simp [contrib, isProduction, ht, hφ a (by simp) ht]
    · rfl

theorem recycling_bur {M : MathEnv} {d : Dataset} {outs : List Dataset} (h : recyclingAllocation M d = .ok outs) (φ : Functional)
    (hφ : ∀ e ∈ refs d, φ .fromTechnosphere e.name e.compartment e.id = 0)
    {A : String → ℚ} (hA : ∀ e ∈ production d, A e.id = e.amount) : (outs.map fun o => bur φ o * units A o).sum = bur φ d := by
  unfold recyclingAllocation at h
  obtain ⟨rp, -, h⟩ := bind_eq_ok.mp h
  split at h
  · cases h
  · obtain ⟨b, -, h⟩ := bind_eq_ok.mp h
    split at h
    · cases h
    · obtain ⟨ex, hex, h⟩ := bind_eq_ok.mp h
      rw [economic_bur h φ ?_]
      · exact recycling_contrib hex φ fun e he ht => hφ e (List.mem_filter.mpr ⟨he, by simp [ht]⟩)
      · intro e he
        have : e ∈ ex.filter isProduction := he
        rw [recycling_production hex] at this
        obtain ⟨h1, h2⟩ := List.mem_filter.mp this
        exact hA e (List.mem_filter.mpr ⟨h1, by simp only [isProduction, Bool.or_eq_true]; exact Or.inr h2⟩)

theorem waste_bur {M : MathEnv} {d : Dataset} {outs : List Dataset} (h : wasteTreatmentAllocation M d = .ok outs) (φ : Functional)
    {A : String → ℚ} (hA : ∀ e ∈ production d, A e.id = e.amount) : (outs.map fun o => bur φ o * units A o).sum = bur φ d := by
  unfold wasteTreatmentAllocation at h
  obtain ⟨rp, hrp, h⟩ := bind_eq_ok.mp h
  have hrpm : rp ∈ production d := by
    have : rp ∈ refs d := by rw [getSingle_ok.mp hrp]; simp
    obtain ⟨h1, h2⟩ := List.mem_filter.mp this
    exact List.mem_filter.mpr ⟨h1, by simp only [isProduction, Bool.or_eq_true]; exact Or.inl h2⟩
  by_cases h1 : rp.cls = some .waste
  swap
  · simp [h1] at h
  simp only [h1, ne_eq, not_true_eq_false, if_false] at h
  by_cases h2 : rp.amount < 0
  swap
  · simp [h2] at h
  simp only [h2, not_true_eq_false, if_false] at h
  obtain ⟨first, hfirst, h⟩ := bind_eq_ok.mp h
  obtain ⟨prod, hprod, h⟩ := bind_eq_ok.mp h
  obtain ⟨free, hfree, h⟩ := bind_eq_ok.mp h
  cases h
  obtain ⟨-, rfl⟩ := allocatableProduction_inv hprod
  rw [List.map_cons, List.sum_cons]
  have hz : (free.map fun o => bur φ o * units A o).sum = 0 := by
    apply List.sum_eq_zero
    intro q hq
    obtain ⟨o, ho, rfl⟩ := List.mem_map.mp hq
    obtain ⟨e, he, hfe⟩ := mapE_mem hfree ho
    unfold freeByproduct at hfe
    obtain ⟨n, -, -, -, -, hb⟩ := choose_bur hfe φ
    have hp : isProduction e = true := (List.mem_filter.mp (List.mem_filter.mp he).1).2
    have : bur φ { d with exchanges := [e] } = 0 := by simp [bur, contrib, hp]
    rw [hb, this]
    ring
  rw [hz, add_zero]
  obtain ⟨n, hn, h0, hr, hi, hb⟩ := choose_bur hfirst φ
  unfold units
  rw [hb, hr, hi A, hA rp hrpm]
  field_simp

theorem sum_live (l : List Exchange) : ((l.filter fun e => e.amount != 0).map (·.amount)).sum = (l.map (·.amount)).sum := by
  induction l with
  | nil => rfl
  | cons e l ih =>
    rw [List.filter_cons, List.map_cons, List.sum_cons, ← ih]
    by_cases h : e.amount = 0
    · simp [h]
    · simp [h]

theorem refs_production {d : Dataset} {e : Exchange} (h : e ∈ refs d) : e ∈ production d := by
  obtain ⟨h1, h2⟩ := List.mem_filter.mp h
  exact List.mem_filter.mpr ⟨h1, by simp only [isProduction, Bool.or_eq_true]; exact Or.inl h2⟩

theorem single_bur {d : Dataset} (h : OneProduct d) (φ : Functional) {A : String → ℚ} (hA : ∀ e ∈ production d, A e.id = e.amount) :
    ([d].map fun o => bur φ o * units A o).sum = bur φ d := by
  obtain ⟨e, he⟩ := List.length_eq_one_iff.mp h.1
  have h1 : refAmount d = e.amount := by
    unfold refAmount
    rw [← sum_live]
    show ((liveRefs d).map (·.amount)).sum = _
    rw [he]
    simp
  have h2 : e.amount ≠ 0 := by
    have : e ∈ liveRefs d := by rw [he]; simp
    simpa using (List.mem_filter.mp this).2
  have h3 : ((refs d).map fun e => A e.id).sum = refAmount d := by
    unfold refAmount
    congr 1
    apply List.map_congr_left
    intro x hx
    exact hA x (refs_production hx)
  simp only [List.map_cons, List.map_nil, List.sum_cons, List.sum_nil, add_zero]
  unfold units
  rw [h3, h1, div_self h2, mul_one]

theorem bur_labelled (φ : Functional) (l : Option String) (d : Dataset) : bur φ (labelled l d) = bur φ d := rfl
theorem units_labelled (A : String → ℚ) (l : Option String) (d : Dataset) : units A (labelled l d) = units A d := rfl

theorem Spec.Method.group_inv {d : Dataset} (h : Method d "market group") : d.type = .marketGroup := by
  generalize hq : "market group" = q at h
  cases h <;> first | assumption | exact absurd hq (by decide)

theorem Spec.Method.unconstrained_inv {d : Dataset} (h : Method d "unconstrained market") : d.type = .market := by
  generalize hq : "unconstrained market" = q at h
  cases h <;> first | assumption | exact absurd hq (by decide)

theorem Spec.Method.many_inv {d : Dataset} {m : String} (h : Method d m) (hm : m = "combined production without products" ∨ m = "combined production" ∨
    m = "combined production with byproducts") : 1 < (liveRefs d).length := by
  cases h <;> first | assumption | exact absurd hm (by decide)

/-- Allocation of an activity that is not a combined production. -/
theorem method_bur {M : MathEnv} {F : FormulaEnv} {ord : Dataset → Except Err (List String)} {d : Dataset} {m : String} {outs : List Dataset}
    (hm : Method d m) (hr : MethodResult M F ord (labelled (some m) d) m outs) (h1 : d.type ≠ .market) (h2 : d.type ≠ .marketGroup)
    (h3 : (liveRefs d).length ≤ 1) (φ : Functional) (hφ : ∀ e ∈ refs d, φ .fromTechnosphere e.name e.compartment e.id = 0)
    {A : String → ℚ} (hA : ∀ e ∈ production d, A e.id = e.amount) : (outs.map fun o => bur φ o * units A o).sum = bur φ d := by
  rw [← bur_labelled φ (some m) d]
  cases hr with
  | single => exact single_bur (d := labelled _ d) hm.single_inv φ hA
  | group _ => exact absurd hm.group_inv h2
  | unconstrained _ => exact absurd hm.unconstrained_inv h1
  | economic h => exact economic_bur h φ hA
  | recycling h => exact recycling_bur h φ hφ hA
  | waste h => exact waste_bur h φ hA
  | without h => have := hm.many_inv (by simp); omega
  | combined h => have := hm.many_inv (by simp); omega
  | withBy h => have := hm.many_inv (by simp); omega

theorem choose_type {M : MathEnv} {ds out : Dataset} {x : Exchange} {f : ℚ} (h : chooseReferenceProduct M ds x f = .ok out) :
    out.type = ds.type ∧ out.id = ds.id := by
  obtain ⟨-, -, n, non, -, -, -, hd⟩ := C11_choose_shape M ds out x f h
  rw [hd]
  exact ⟨rfl, rfl⟩

theorem economic_type {M : MathEnv} {d o : Dataset} {outs : List Dataset} (h : economicAllocation M d = .ok outs) (ho : o ∈ outs) : o.type = d.type := by
  obtain ⟨-, -, fs, -, -, hf⟩ := economicAllocation_inv h
  obtain ⟨p, -, hc⟩ := forall₂_mem_right hf ho
  exact (choose_type hc).1

theorem method_type {M : MathEnv} {F : FormulaEnv} {ord : Dataset → Except Err (List String)} {d : Dataset} {m : String} {outs : List Dataset}
    (hm : Method d m) (hr : MethodResult M F ord (labelled (some m) d) m outs) (h1 : d.type ≠ .market) (h2 : d.type ≠ .marketGroup)
    (h3 : (liveRefs d).length ≤ 1) : ∀ o ∈ outs, o.type = d.type := by
  intro o ho
  cases hr with
  | single => rw [List.mem_singleton.mp ho]; rfl
  | group _ => exact absurd hm.group_inv h2
  | unconstrained _ => exact absurd hm.unconstrained_inv h1
  | economic h =>
    have := economic_type h ho
    exact this
  | recycling h =>
    unfold recyclingAllocation at h
    obtain ⟨rp, -, h⟩ := bind_eq_ok.mp h
    split at h
    · cases h
    · obtain ⟨b, -, h⟩ := bind_eq_ok.mp h
      split at h
      · cases h
      · obtain ⟨ex, hex, h⟩ := bind_eq_ok.mp h
        have := economic_type h ho
        exact this
  | waste h =>
    unfold wasteTreatmentAllocation at h
    obtain ⟨rp, hrp, h⟩ := bind_eq_ok.mp h
    by_cases h1 : rp.cls = some .waste
    swap
    · simp [h1] at h
    simp only [h1, ne_eq, not_true_eq_false, if_false] at h
    by_cases h2 : rp.amount < 0
    swap
    · simp [h2] at h
    simp only [h2, not_true_eq_false, if_false] at h
    obtain ⟨first, hfirst, h⟩ := bind_eq_ok.mp h
    obtain ⟨prod, hprod, h⟩ := bind_eq_ok.mp h
    obtain ⟨free, hfree, h⟩ := bind_eq_ok.mp h
    cases h
    rcases List.mem_cons.mp ho with rfl | ho
    · exact (choose_type hfirst).1
    · obtain ⟨e, he, hfe⟩ := mapE_mem hfree ho
      exact (choose_type hfe).1
  | without h => have := hm.many_inv (by simp); omega
  | combined h => have := hm.many_inv (by simp); omega
  | withBy h => have := hm.many_inv (by simp); omega

theorem method_id {M : MathEnv} {F : FormulaEnv} {ord : Dataset → Except Err (List String)} {d : Dataset} {m : String} {outs : List Dataset}
    (hr : MethodResult M F ord d m outs) : ∀ o ∈ outs, o.id = d.id := by
  intro o ho
  cases hr with
  | single => rw [List.mem_singleton.mp ho]
  | group _ => rw [List.mem_singleton.mp ho]
  | unconstrained _ => rw [List.mem_singleton.mp ho]
  | economic h => exact (From.economic h ho).id
  | recycling h => exact (From.recycling h ho).id
  | waste h => exact (From.waste h ho).id
  | without h =>
    unfold combinedWithoutProducts at h
    obtain ⟨l, hl, h⟩ := bind_eq_ok.mp h
    obtain ⟨x, hx, r, hr, hdr⟩ := flatMapE_mem h ho
    exact ((From.combined hl hx).trans (.split hr hdr)).id
  | combined h => exact (From.combined h ho).id
  | withBy h =>
    unfold combinedWithByproducts at h
    obtain ⟨l, hl, h⟩ := bind_eq_ok.mp h
    obtain ⟨a, ha, h⟩ := bind_eq_ok.mp h
    obtain ⟨y, hy, hf⟩ := descends_merge a outs h o ho
    obtain ⟨x, hx, r, hr, hyr⟩ := flatMapE_mem ha hy
    exact (((From.combined hl hx).trans (.economic hr hyr)).trans hf).id

/-! ## Before allocation -/

/-- The same flow; byproducts may be called otherwise. -/
structure RenExc (e e' : Exchange) : Prop where
  type : e'.type = e.type
  cls : e'.cls = e.cls
  id : e'.id = e.id
  name : e.type ≠ .byproduct → e'.name = e.name
  compartment : e'.compartment = e.compartment
  amount : e'.amount = e.amount

theorem KeptExc.ren {e e' : Exchange} (h : KeptExc e e') : RenExc e e' := ⟨h.type, h.cls, h.id, fun _ => h.name, h.compartment, h.amount⟩

theorem RenExc.trans {a b c : Exchange} (h : RenExc a b) (h' : RenExc b c) : RenExc a c :=
  ⟨h'.type.trans h.type, h'.cls.trans h.cls, h'.id.trans h.id, fun hn => (h'.name (by rw [h.type]; exact hn)).trans (h.name hn),
    h'.compartment.trans h.compartment, h'.amount.trans h.amount⟩

theorem RenExc.prod {e e' : Exchange} (h : RenExc e e') : isProduction e' = isProduction e := by
  unfold isProduction
  rw [h.type, h.cls]

namespace Spec

/-- The dataset without the exchanges that are marked as being for consequential system models. -/
def attributional (s : Dataset) : Dataset :=
  { s with exchanges := s.exchanges.filter fun e => !(e.properties.any fun p => p.name == "consequential" && p.amount == 1) }

end Spec

theorem attributional_exchanges (s : Dataset) : (attributional s).exchanges = s.exchanges.filter fun e => !hasConsequentialProperty e := rfl

/-- The dataset as it comes to allocation. -/
structure Prep (s p : Dataset) : Prop where
  id : p.id = s.id
  type : p.type = s.type
  exchanges : ∃ q : Exchange → Bool, (∀ e, q e = false → e.amount = 0) ∧ List.Forall₂ RenExc ((attributional s).exchanges.filter q) p.exchanges

/-- A functional that does not look at the names of byproducts. -/
def Blind (φ : Functional) : Prop := ∀ n n' c i, φ .byproduct n c i = φ .byproduct n' c i

theorem contrib_ren {φ : Functional} (hφ : Blind φ) {e e' : Exchange} (h : RenExc e e') : contrib φ e' = contrib φ e := by
  unfold contrib
  rw [h.prod, h.type, h.id, h.compartment, h.amount]
  by_cases hb : e.type = .byproduct
  · rw [hb, hφ e'.name e.name]
  · rw [h.name hb]

theorem contrib_zero {φ : Functional} {e : Exchange} (h : e.amount = 0) : contrib φ e = 0 := by
  unfold contrib
  rw [h]
  simp

theorem sum_filter_zero {α : Type} {l : List α} {q : α → Bool} {f : α → ℚ} (h : ∀ e, q e = false → f e = 0) :
    ((l.filter q).map f).sum = (l.map f).sum := by
  induction l with
  | nil => rfl
  | cons e l ih =>
    rw [List.filter_cons, List.map_cons, List.sum_cons, ← ih]
    by_cases hq : q e = true
    · simp [hq]
    · simp [hq, h e (by simpa using hq)]

theorem Prep.bur {s p : Dataset} (h : Prep s p) {φ : Functional} (hφ : Blind φ) : bur φ p = bur φ (attributional s) := by
  obtain ⟨q, hq, hF⟩ := h.exchanges
  unfold Ocelot.bur
  rw [← forall₂_map_eq' hF fun a b hab => (contrib_ren hφ hab).symm, sum_filter_zero fun e he => contrib_zero (hq e he)]

theorem Prep.production {s p : Dataset} (h : Prep s p) {e' : Exchange} (he : e' ∈ production p) :
    ∃ e ∈ Spec.production (attributional s), RenExc e e' := by
  obtain ⟨q, hq, hF⟩ := h.exchanges
  obtain ⟨h1, h2⟩ := List.mem_filter.mp he
  obtain ⟨e, h3, h4⟩ := forall₂_mem_right hF h1
  exact ⟨e, List.mem_filter.mpr ⟨(List.mem_filter.mp h3).1, by rw [← h4.prod]; exact h2⟩, h4⟩

theorem Prep.refs {s p : Dataset} (h : Prep s p) {e' : Exchange} (he : e' ∈ refs p) : ∃ e ∈ Spec.refs (attributional s), RenExc e e' := by
  obtain ⟨q, hq, hF⟩ := h.exchanges
  obtain ⟨h1, h2⟩ := List.mem_filter.mp he
  obtain ⟨e, h3, h4⟩ := forall₂_mem_right hF h1
  exact ⟨e, List.mem_filter.mpr ⟨(List.mem_filter.mp h3).1, by rw [← h4.type]; exact h2⟩, h4⟩

theorem Prep.liveRefs {s p : Dataset} (h : Prep s p) : (liveRefs p).length = (Spec.liveRefs (attributional s)).length := by
  obtain ⟨q, hq, hF⟩ := h.exchanges
  have h1 : List.Forall₂ RenExc _ (Spec.liveRefs p) :=
    forall₂_filter_rel (p := fun e => e.amount != 0) (forall₂_filter_rel (p := fun e : Exchange => e.type == .referenceProduct) hF fun a b hab => by rw [hab.type]) fun a b hab => by rw [hab.amount]
  rw [← h1.length_eq]
  unfold Spec.liveRefs Spec.refs
  congr 1
  rw [List.filter_filter, List.filter_filter, List.filter_filter]
  apply List.filter_congr
  intro e _
  by_cases hz : e.amount = 0
  · simp [hz]
  · have : q e = true := by
      by_contra hn
      exact hz (hq e (by simpa using hn))
    simp [this]

/-! ### The functions before allocation -/

def refineryFilter (d : Dataset) (e : Exchange) : Bool :=
  if d.name = "petroleum refinery operation" then decide (e.name ≠ "refinery gas") || decide (e.amount ≠ 0) else true

theorem fixSpecificIssues_eq (d : Dataset) : fixSpecificIssues d = { d with exchanges := d.exchanges.filter (refineryFilter d) } := by
  unfold fixSpecificIssues refineryFilter
  split
  · rfl
  · simp

/-- The functions before allocation, split where flows may change. -/
theorem cutoffBefore_split : cutoffBefore ++ [.addUniqueCodes] =
    ([.ensureIdsAreUnique, .copyOriginalExchangeId, .variableNamesAreUnique, .ensureMarketsOneProduct, .ensureMarketsNoOwnConsumption] ++
    .fixSpecificIssues :: ([.replaceImplicitReferences, .repairUncertainty, .fixKnownBadFormulas, .lowercaseParameters, .fixMathFormulas,
    .replaceReservedWords, .deleteUnparsableFormulas, .ensureVolumesGiven, .addPvToAllocatableByproducts, .createPvParameters] ++
    .removeConsequentialExchanges :: ([.dropRpActivityLinks, .dropZeroAmountActivityLinks, .updateParentChild, .fix35ActivityLinks,
    .checkActivityLinkValidity, .addHardLinkedVolumes, .updateTransformingVolumes] ++
    .renameRecyclable :: .createRecycledContentDatasets :: (.labelAllocationMethod :: ((allocationLabels.drop 1).map Step.allocate ++
    .deleteAllocationMethod :: ([.dropRpActivityLinks, .labelReferenceProduct] ++ .deleteWhitelistedMarkets ::
    [.assignFakePv, .correctPipelineLocation, .relabelGlobalToRow, .checkNoRowMarketGroups, .addUniqueCodes])))))) := rfl

/-- The allocation functions. -/
theorem foldE_allocate {P : PipelineEnv} (ls : List String) (items : List Item) :
    foldE (fun d (s : Step) => s.run P d) items (ls.map Step.allocate) = runMethods P.M P.F P.ord ls items := by
  induction ls generalizing items with
  | nil => rfl
  | cons l ls ih =>
    simp only [List.map_cons, foldE]
    unfold runMethods
    congr 1
    funext x
    exact ih x

theorem Prep.of_steps {s s1 s3 s5 s6 : Dataset} (h1 : Keeps s s1) (h3 : Keeps (fixSpecificIssues s1) s3)
    (h5 : Keeps { s3 with exchanges := s3.exchanges.filter fun e => !hasConsequentialProperty e } s5)
    (h6 : s6.id = s5.id ∧ s6.type = s5.type ∧ List.Forall₂ RenExc s5.exchanges s6.exchanges) : Prep s s6 := by
  rw [fixSpecificIssues_eq] at h3
  refine ⟨by rw [h6.1, h5.id, h3.id, h1.id], by rw [h6.2.1, h5.type, h3.type, h1.type], refineryFilter s1, ?_, ?_⟩
  · intro e he
    unfold refineryFilter at he
    split at he
    · simp at he
      exact he.2
    · cases he
  · have a1 : List.Forall₂ KeptExc (s.exchanges.filter (refineryFilter s1)) (s1.exchanges.filter (refineryFilter s1)) :=
      forall₂_filter_rel h1.exchanges fun a b hab => by unfold refineryFilter; rw [hab.name, hab.amount]
    have a2 := forall₂_trans' a1 h3.exchanges fun _ _ _ => KeptExc.trans
    have a3 : List.Forall₂ KeptExc ((s.exchanges.filter (refineryFilter s1)).filter fun e => !hasConsequentialProperty e)
        (s3.exchanges.filter fun e => !hasConsequentialProperty e) := forall₂_filter_rel a2 fun a b hab => by rw [hab.marked]
    have a4 := forall₂_trans' a3 h5.exchanges fun _ _ _ => KeptExc.trans
    rw [attributional_exchanges, List.filter_comm]
    exact forall₂_trans' a4 h6.2.2 fun _ _ _ hx hy => hx.ren.trans hy

theorem renameRecyclable_ren {e e' : Exchange} (h : renameRecyclable e = .ok e') : RenExc e e' := by
  unfold renameRecyclable at h
  obtain ⟨b, hb, h⟩ := bind_eq_ok.mp h
  cases h
  cases b
  · exact ⟨rfl, rfl, rfl, fun _ => rfl, rfl, rfl⟩
  · refine ⟨rfl, rfl, rfl, fun hn => ?_, rfl, rfl⟩
    unfold isRecyclableByproduct at hb
    rw [if_neg hn] at hb
    cases hb

/-- The datasets for recycled content have one product and nothing else. -/
structure OnlyProduct (d : Dataset) : Prop where
  type : d.type = .transforming
  one : OneProduct d
  nothing : ∀ φ, bur φ d = 0

theorem newDatasets_only {data c : List Dataset} (hc : recycledContentCandidates data = .ok c) {d' : Dataset} (hd' : d' ∈ c) : OnlyProduct d' := by
  unfold recycledContentCandidates at hc
  obtain ⟨d, hd, bs, hb, hm⟩ := flatMapE_mem hc hd'
  obtain ⟨recs, -, hb⟩ := bind_eq_ok.mp hb
  obtain ⟨e, -, he⟩ := mapE_mem hb hm
  unfold newRecycledContentDataset at he
  obtain ⟨sd, -, he⟩ := bind_eq_ok.mp he
  obtain ⟨ed, -, he⟩ := bind_eq_ok.mp he
  obtain ⟨tl, -, he⟩ := bind_eq_ok.mp he
  cases he
  refine ⟨rfl, ⟨?_, ?_⟩, ?_⟩
  · simp [liveRefs, refs]
  · rintro ⟨x, hx, h1, -⟩
    simp only [List.mem_singleton] at hx
    subst hx
    cases h1
  · intro φ
    simp [bur, contrib, isProduction]

theorem ids_nodup {data out : List Dataset} (h : ensureIdsAreUnique data = .ok out) : (data.map (·.id)).Nodup := by
  unfold ensureIdsAreUnique at h
  split at h
  · cases h
  · rename_i hh
    have hl : distinctCount (data.map (·.id)) = data.length := by simpa using hh
    unfold distinctCount at hl
    have hs := List.dedup_sublist (data.map (·.id))
    have : (data.map (·.id)).dedup = data.map (·.id) := hs.eq_of_length (by simpa using hl)
    rw [← this]
    exact List.nodup_dedup _

/-- The pipeline up to allocation. -/
theorem prep_all {P : PipelineEnv} {data : List Dataset} {out : List Item} (h : runSteps P (cutoffBefore ++ [.addUniqueCodes]) data = .ok out) :
    ∃ (prep news : List Dataset) (items : List Item) (parts kept r1 r2 : List Dataset), (data.map (·.id)).Nodup ∧ List.Forall₂ Prep data prep ∧ (∀ d ∈ news, OnlyProduct d) ∧
      cutoffAllocation P.M P.F P.ord (prep ++ news) = .ok items ∧
      items = parts.map .ds ∧ List.Forall₂ Keeps parts r1 ∧ kept = r1.filter (fun d => !isWhitelisted d) ∧ List.Forall₂ Keeps kept r2 ∧ out = r2.map .ds := by
  unfold runSteps at h
  rw [cutoffBefore_split] at h
  obtain ⟨m1, k1, hh1⟩ := foldE_split.mp h
  obtain ⟨d1, rfl, K1⟩ := run_keeps P _ (by decide) data m1 k1
  have hn : (data.map (·.id)).Nodup := by
    simp only [foldE] at k1
    obtain ⟨x, hx, -⟩ := bind_eq_ok.mp k1
    obtain ⟨y, hy, -⟩ := onDatasets_map.mp hx
    exact ids_nodup hy
  simp only [foldE] at hh1
  obtain ⟨m2, k2, hh2⟩ := bind_eq_ok.mp hh1
  obtain ⟨d2, hd2, rfl⟩ := onDatasets_map.mp k2
  cases hd2
  obtain ⟨m3, k3, hh3⟩ := foldE_split.mp hh2
  obtain ⟨d3, rfl, K3⟩ := run_keeps P _ (by decide) _ m3 k3
  simp only [foldE] at hh3
  obtain ⟨m4, k4, hh4⟩ := bind_eq_ok.mp hh3
  obtain ⟨d4, hd4, rfl⟩ := onDatasets_map.mp k4
  cases hd4
  obtain ⟨m5, k5, hh5⟩ := foldE_split.mp hh4
  obtain ⟨d5, rfl, K5⟩ := run_keeps P _ (by decide) _ m5 k5
  simp only [foldE] at hh5
  obtain ⟨m6, k6, hh6⟩ := bind_eq_ok.mp hh5
  obtain ⟨d6, hd6, rfl⟩ := onDatasets_map.mp k6
  obtain ⟨m7, k7, hh7⟩ := bind_eq_ok.mp hh6
  obtain ⟨d7, hd7, rfl⟩ := onDatasets_map.mp k7
  obtain ⟨m8, k8, hh8⟩ := bind_eq_ok.mp hh7
  obtain ⟨d8, hd8, rfl⟩ := onDatasets_map.mp k8
  obtain ⟨m9, k9, hh9⟩ := foldE_split.mp hh8
  rw [foldE_allocate] at k9
  simp only [foldE] at hh9
  obtain ⟨m10, k10, hh10⟩ := bind_eq_ok.mp hh9
  unfold createRecycledContentDatasets at hd7
  obtain ⟨c, hc, hd7⟩ := bind_eq_ok.mp hd7
  cases hd7
  have hca : cutoffAllocation P.M P.F P.ord (d6 ++ (dictOf (fun d : Dataset => d.name) (fun d => d) c).map (·.2)) = .ok m10 :=
    bind_eq_ok.mpr ⟨d8, hd8, bind_eq_ok.mpr ⟨m9, k9, k10⟩⟩
  obtain ⟨parts, hparts, -⟩ := C26_dispatch _ _ _ _ _ hca
  rw [hparts] at hh10
  obtain ⟨m11, k11, hh11⟩ := foldE_split.mp hh10
  obtain ⟨r1, rfl, K11⟩ := run_keeps P _ (by decide) _ m11 k11
  simp only [foldE] at hh11
  obtain ⟨m12, k12, hh12⟩ := bind_eq_ok.mp hh11
  obtain ⟨d12, hd12, rfl⟩ := onDatasets_map.mp k12
  unfold deleteWhitelistedMarkets at hd12
  obtain ⟨_, -, hd12⟩ := bind_eq_ok.mp hd12
  cases hd12
  obtain ⟨r2, rfl, K13⟩ := run_keeps P [.assignFakePv, .correctPipelineLocation, .relabelGlobalToRow, .checkNoRowMarketGroups, .addUniqueCodes] (by decide) _ _ hh12
  refine ⟨d6, _, m10, _, _, r1, r2, hn, ?_, ?_, hca, hparts, K11, rfl, K13, rfl⟩
  · unfold renameRecyclableContentExchanges at hd6
    have K6 := mapE_ok_iff.mp hd6
    unfold removeConsequentialExchanges at K5
    rw [List.forall₂_map_left_iff] at K5 K3
    have a1 := forall₂_trans' K1 K3 (T := fun s s3 => ∃ s1, Keeps s s1 ∧ Keeps (fixSpecificIssues s1) s3) fun a b c h1 h2 => ⟨b, h1, h2⟩
    have a2 := forall₂_trans' a1 K5 (T := fun s s5 => ∃ s1 s3, Keeps s s1 ∧ Keeps (fixSpecificIssues s1) s3 ∧
      Keeps { s3 with exchanges := s3.exchanges.filter fun e => !hasConsequentialProperty e } s5) fun a b c h1 h2 => by
        obtain ⟨x, hx⟩ := h1
        exact ⟨x, b, hx.1, hx.2, h2⟩
    refine forall₂_trans' a2 K6 fun a b c h1 h2 => ?_
    obtain ⟨s1, s3, g1, g2, g3⟩ := h1
    obtain ⟨ex, hex, h2⟩ := bind_eq_ok.mp h2
    cases h2
    exact .of_steps g1 g2 g3 ⟨rfl, rfl, (mapE_ok_iff.mp hex).imp fun _ _ => renameRecyclable_ren⟩
  · intro d' hd'
    obtain ⟨p, hp, rfl⟩ := List.mem_map.mp hd'
    obtain ⟨k, v⟩ := p
    obtain ⟨l₁, a, l₂, rfl, -, rfl, -⟩ := (dictOf_mem ..).mp hp
    exact newDatasets_only hc (by simp)

/-! ## Totals -/

/-- The total of the flows of the datasets with id `i`, multiplied with the amounts of their products. -/
def total (i : String) (φ : Functional) (A : String → ℚ) (l : List Dataset) : ℚ :=
  (l.map fun d => if d.id = i then bur φ d * units A d else 0).sum

theorem total_append (i : String) (φ : Functional) (A : String → ℚ) (l r : List Dataset) : total i φ A (l ++ r) = total i φ A l + total i φ A r := by
  unfold total
  rw [List.map_append, List.sum_append]

theorem total_filter (i : String) (φ : Functional) (A : String → ℚ) (l : List Dataset) :
    total i φ A l = ((l.filter fun d => d.id == i).map fun d => bur φ d * units A d).sum := by
  unfold total
  induction l with
  | nil => rfl
  | cons d l ih =>
    rw [List.map_cons, List.sum_cons, ih, List.filter_cons]
    by_cases h : d.id = i
    · simp [h]
    · simp [h]

theorem Keeps.bur {d d' : Dataset} (h : Keeps d d') (φ : Functional) : bur φ d' = bur φ d := by
  unfold Ocelot.bur
  rw [← forall₂_map_eq' h.exchanges]
  intro a b hab
  unfold contrib isProduction
  rw [hab.type, hab.cls, hab.id, hab.name, hab.compartment, hab.amount]

theorem Keeps.refs {d d' : Dataset} (h : Keeps d d') : List.Forall₂ KeptExc (refs d) (Spec.refs d') :=
  forall₂_filter_rel h.exchanges fun a b hab => by rw [hab.type]

theorem Keeps.units {d d' : Dataset} (h : Keeps d d') (A : String → ℚ) : units A d' = units A d := by
  unfold Ocelot.units refAmount
  rw [← forall₂_map_eq' h.refs fun a b hab => hab.amount.symm, ← forall₂_map_eq' (p := fun e : Exchange => A e.id) h.refs fun a b hab => by rw [hab.id]]

theorem total_keeps {l r : List Dataset} (h : List.Forall₂ Keeps l r) (i : String) (φ : Functional) (A : String → ℚ) : total i φ A r = total i φ A l := by
  unfold total
  rw [← forall₂_map_eq' h]
  intro a b hab
  rw [hab.id, hab.bur φ, hab.units A]

theorem total_whitelist {l : List Dataset} {i : String} (h : ∀ d ∈ l, d.id = i → d.type ≠ .market) (φ : Functional) (A : String → ℚ) :
    total i φ A (l.filter fun d => !isWhitelisted d) = total i φ A l := by
  unfold total
  induction l with
  | nil => rfl
  | cons d l ih =>
    rw [List.filter_cons, List.map_cons, List.sum_cons, ← ih fun x hx => h x (by simp [hx])]
    by_cases hw : isWhitelisted d = true
    · have : d.id ≠ i := by
        intro hi
        unfold isWhitelisted at hw
        simp only [Bool.and_eq_true, beq_iff_eq] at hw
        exact h d (by simp) hi hw.1.1
      simp [hw, this]
    · simp [hw]

theorem total_zero {l : List Dataset} {i : String} (h : ∀ d ∈ l, d.id ≠ i) (φ : Functional) (A : String → ℚ) : total i φ A l = 0 := by
  unfold total
  apply List.sum_eq_zero
  intro q hq
  obtain ⟨d, hd, rfl⟩ := List.mem_map.mp hq
  simp [h d hd]

theorem total_all {l : List Dataset} {i : String} (h : ∀ d ∈ l, d.id = i) (φ : Functional) (A : String → ℚ) :
    total i φ A l = (l.map fun d => bur φ d * units A d).sum := by
  unfold total
  congr 1
  apply List.map_congr_left
  intro d hd
  simp [h d hd]

/-- What the allocation of a dataset contributes. -/
theorem total_parts {l : List Dataset} {parts : List (List Dataset)} {i : String} {φ : Functional} {A : String → ℚ}
    (h : List.Forall₂ (fun d outs => total i φ A outs = if d.id = i then bur φ d else 0) l parts) :
    total i φ A parts.flatten = (l.map fun d => if d.id = i then bur φ d else 0).sum := by
  induction h with
  | nil => rfl
  | cons h _ ih =>
    rw [List.flatten_cons, total_append, List.map_cons, List.sum_cons, ih, h]

theorem sum_unique {l : List Dataset} {s : Dataset} (hs : s ∈ l) (hn : (l.map (·.id)).Nodup) (v : Dataset → ℚ) :
    (l.map fun d => if d.id = s.id then v d else 0).sum = v s := by
  induction l with
  | nil => cases hs
  | cons d l ih =>
    rw [List.map_cons, List.nodup_cons] at hn
    rw [List.map_cons, List.sum_cons]
    rcases List.mem_cons.mp hs with rfl | hs'
    · have : (l.map fun d => if d.id = s.id then v d else 0).sum = 0 := by
        apply List.sum_eq_zero
        intro q hq
        obtain ⟨x, hx, rfl⟩ := List.mem_map.mp hq
        rw [if_neg fun he => hn.1 (List.mem_map.mpr ⟨x, hx, he⟩)]
      rw [this]
      simp
    · rw [ih hs' hn.2, if_neg fun he => hn.1 (List.mem_map.mpr ⟨s, hs', he.symm⟩), zero_add]

theorem forall₂_with {α β : Type} {R : α → β → Prop} {l : List α} {r : List β} (h : List.Forall₂ R l r) : List.Forall₂ (fun a b => a ∈ l ∧ R a b) l r := by
  induction h with
  | nil => exact .nil
  | cons h _ ih => exact .cons ⟨by simp, h⟩ (ih.imp fun a b hab => ⟨by simp [hab.1], hab.2⟩)

/-- The flows of an activity that is not a combined production are those of its products, together. -/
theorem coded_total {P : PipelineEnv} {data coded : List Dataset} (h : runSteps P (cutoffBefore ++ [.addUniqueCodes]) data = .ok (coded.map .ds))
    {s : Dataset} (hs : s ∈ data) (h1 : s.type ≠ .market) (h2 : s.type ≠ .marketGroup) (h3 : (liveRefs (attributional s)).length ≤ 1)
    {A : String → ℚ} (hA : ∀ e ∈ production (attributional s), A e.id = e.amount) :
    (∀ d ∈ coded, d.id = s.id → d.type ≠ .market ∧ d.type ≠ .marketGroup) ∧
    ∀ φ : Functional, Blind φ → (∀ e ∈ refs (attributional s), φ .fromTechnosphere e.name e.compartment e.id = 0) →
      total s.id φ A coded = bur φ (attributional s) := by
  obtain ⟨prep, news, items, parts, kept, r1, r2, hn, hP, hN, hca, rfl, K1, rfl, K2, hout⟩ := prep_all h
  have : coded = r2 := List.map_injective_iff.mpr (fun x y hxy => by cases hxy; rfl) hout
  subst this
  obtain ⟨pp, hpp, hF⟩ := C26_dispatch _ _ _ _ _ hca
  have : parts = pp.flatten.map (labelled none) := List.map_injective_iff.mpr (fun x y hxy => by cases hxy; rfl) hpp
  subst this
  -- the datasets that come to allocation with the id of `s`
  have hin : ∀ d ∈ prep ++ news, d.id = s.id → Prep s d ∨ OnlyProduct d := by
    intro d hd hi
    rcases List.mem_append.mp hd with hd | hd
    · obtain ⟨x, hx, hxd⟩ := forall₂_mem_right hP hd
      have : x = s := List.inj_on_of_nodup_map hn hx hs (hxd.id.symm.trans hi)
      exact Or.inl (this ▸ hxd)
    · exact Or.inr (hN d hd)
  have hprops : ∀ d ∈ prep ++ news, d.id = s.id → d.type ≠ .market ∧ d.type ≠ .marketGroup ∧ (liveRefs d).length ≤ 1 := by
    intro d hd hi
    rcases hin d hd hi with hp | hp
    · exact ⟨by rw [hp.type]; exact h1, by rw [hp.type]; exact h2, by rw [hp.liveRefs]; exact h3⟩
    · exact ⟨by rw [hp.type]; decide, by rw [hp.type]; decide, by rw [hp.one.1]⟩
  have hF' := forall₂_with hF
  have htypes : ∀ d ∈ pp.flatten, d.id = s.id → d.type ≠ .market ∧ d.type ≠ .marketGroup := by
    intro d hd hi
    obtain ⟨outs, ho, hdo⟩ := List.mem_flatten.mp hd
    obtain ⟨x, hx, -, m, hm, -, hr⟩ := forall₂_mem_right hF' ho
    have hid : x.id = s.id := by rw [← hi]; exact (method_id hr d hdo).symm
    obtain ⟨p1, p2, p3⟩ := hprops x hx hid
    rw [method_type hm hr p1 p2 p3 d hdo]
    exact ⟨p1, p2⟩
  have htypes1 : ∀ d ∈ r1, d.id = s.id → d.type ≠ .market ∧ d.type ≠ .marketGroup := by
    intro d hd hi
    obtain ⟨x, hx, hxd⟩ := forall₂_mem_right K1 hd
    obtain ⟨y, hy, rfl⟩ := List.mem_map.mp hx
    rw [hxd.type]
    exact htypes y hy (by rw [← hi, hxd.id]; rfl)
  refine ⟨fun d hd hi => ?_, fun φ hb hφ => ?_⟩
  · obtain ⟨x, hx, hxd⟩ := forall₂_mem_right K2 hd
    rw [hxd.type]
    exact htypes1 x (List.mem_filter.mp hx).1 (by rw [← hi, hxd.id])
  have hlab : total s.id φ A (pp.flatten.map (labelled none)) = total s.id φ A pp.flatten := by
    unfold total
    rw [List.map_map]
    rfl
  rw [total_keeps K2, total_whitelist ?_, total_keeps K1, hlab, total_parts (l := prep ++ news) ?_, List.map_append, List.sum_append]
  · have e1 : (prep.map fun d => if d.id = s.id then bur φ d else 0) = data.map fun d => if d.id = s.id then bur φ (attributional d) else 0 := by
      rw [forall₂_map_eq' hP]
      intro a b hab
      rw [hab.id, hab.bur hb]
    have e2 : (news.map fun d => if d.id = s.id then bur φ d else 0).sum = 0 := by
      apply List.sum_eq_zero
      intro q hq
      obtain ⟨x, hx, rfl⟩ := List.mem_map.mp hq
      rw [(hN x hx).nothing φ, ite_self]
    rw [e1, e2, add_zero]
    exact sum_unique hs hn fun d => bur φ (attributional d)
  · refine hF'.imp ?_
    rintro d outs ⟨hd, m, hm, -, hr⟩
    have hid : ∀ o ∈ outs, o.id = d.id := fun o ho => method_id hr o ho
    by_cases hi : d.id = s.id
    · rw [if_pos hi, total_all fun o ho => (hid o ho).trans hi]
      obtain ⟨p1, p2, p3⟩ := hprops d hd hi
      rcases hin d hd hi with hp | hp
      · refine method_bur hm hr p1 p2 p3 φ ?_ ?_
        · intro e he
          obtain ⟨x, hx, hxe⟩ := hp.refs he
          have ht : x.type = .referenceProduct := by simpa using (List.mem_filter.mp hx).2
          rw [hxe.name (by rw [ht]; decide), hxe.compartment, hxe.id]
          exact hφ x hx
        · intro e he
          obtain ⟨x, hx, hxe⟩ := hp.production he
          rw [hxe.id, hxe.amount]
          exact hA x hx
      · have hq : m = "single product" := by
          have hone := hp.one
          cases hm <;> first | rfl | contradiction | skip
          all_goals have := hone.1; omega
        subst hq
        rw [hr.single_inv]
        simp [bur_labelled, hp.nothing]
    · rw [if_neg hi]
      exact total_zero (fun o ho he => hi ((hid o ho).symm.trans he)) φ A
  · exact fun d hd hi => (htypes1 d hd hi).1

end Ocelot
