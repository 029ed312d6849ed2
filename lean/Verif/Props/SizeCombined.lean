import Verif.Props.Size
import Verif.Spec.Units
import Verif.Model.Combined

/-! # C135, continued: combined production -/

namespace Ocelot

open Spec

namespace Size

variable {c : ℚ} {good : ℚ → Prop}

/-- A plain exchange of an activity at two sizes. -/
def RP (c : ℚ) (good : ℚ → Prop) (e e' : Exchange) : Prop :=
  PlainObj e.toNumObj ∧ (e.type = .referenceProduct ∨ e.type = .byproduct → good e.amount) ∧ e' = excAtSize c e

/-- An activity with plain exchanges at two sizes. -/
def RDS (c : ℚ) (good : ℚ → Prop) (d d' : Dataset) : Prop :=
  (∀ e ∈ d.exchanges, PlainObj e.toNumObj ∧ (e.type = .referenceProduct ∨ e.type = .byproduct → good e.amount)) ∧ d' = atSize c d

theorem all_RP {l l' : List Exchange} (h : List.Forall₂ (RP c good) l l') :
    (∀ e ∈ l, PlainObj e.toNumObj ∧ (e.type = .referenceProduct ∨ e.type = .byproduct → good e.amount)) ∧ l' = l.map (excAtSize c) := by
  induction h with
  | nil => exact ⟨fun e he => (List.not_mem_nil he).elim, rfl⟩
  | cons hab _ ih =>
    refine ⟨fun e he => ?_, by rw [ih.2, hab.2.2]; rfl⟩
    rcases List.mem_cons.mp he with rfl | he
    · exact ⟨hab.1, hab.2.1⟩
    · exact ih.1 e he

theorem RP_all {l : List Exchange} (h : ∀ e ∈ l, PlainObj e.toNumObj ∧ (e.type = .referenceProduct ∨ e.type = .byproduct → good e.amount)) :
    List.Forall₂ (RP c good) l (l.map (excAtSize c)) := by
  induction l with
  | nil => exact .nil
  | cons a l ih => exact .cons ⟨(h a List.mem_cons_self).1, (h a List.mem_cons_self).2, rfl⟩ (ih fun e he => h e (List.mem_cons_of_mem _ he))

theorem exchange_mapNumE {f : NumObj → Except Err NumObj} (hf : ∀ o, PlainObj o → f o = .ok o) {e e' : Exchange} (h : RP c good e e') :
    Units.ER (RP c good) (e.mapNumE f) (e'.mapNumE f) := by
  obtain ⟨hp, hg, rfl⟩ := h
  unfold Exchange.mapNumE
  rw [hf e.toNumObj hp, hf (excAtSize c e).toNumObj hp]
  show Units.ER _ (mapPvE f e.pv >>= _) (mapPvE f e.pv >>= _)
  refine (Units.ER.refl _).bind ?_
  rintro pv _ rfl
  refine (Units.ER.refl (mapE (fun p : Prop' => do let q ← f p.toNumObj; return { p with toNumObj := q }) e.properties)).bind ?_
  rintro ps _ rfl
  exact ⟨hp, hg, rfl⟩

theorem dataset_mapNumE {f : NumObj → Except Err NumObj} (hf : ∀ o, PlainObj o → f o = .ok o) {d d' : Dataset} (h : RDS c good d d') :
    Units.ER (RDS c good) (d.mapNumE f) (d'.mapNumE f) := by
  obtain ⟨hd, rfl⟩ := h
  unfold Dataset.mapNumE
  refine Units.ER.bind (Units.ER.mapE (RP_all hd) fun e e' he => exchange_mapNumE hf he) fun ex ex' hex => ?_
  refine (Units.ER.refl (mapE (fun p : Param => do let q ← f p.toNumObj; return { p with toNumObj := q }) d.parameters)).bind ?_
  rintro ps _ rfl
  obtain ⟨h1, rfl⟩ := all_RP hex
  exact ⟨h1, rfl⟩

theorem extract_at {d : Dataset} (hd : ∀ e ∈ d.exchanges, PlainObj e.toNumObj) : extractNamedParameters (atSize c d) = extractNamedParameters d := by
  unfold extractNamedParameters
  congr 1
  unfold Dataset.numObjs atSize
  simp only [List.filter_append]
  congr 1
  generalize d.exchanges = l at hd
  induction l with
  | nil => rfl
  | cons a l ih =>
    have ha := (hd a List.mem_cons_self).2.1
    have ha' : (excAtSize c a).toNumObj.var = none := ha
    simp only [List.map_cons, List.flatMap_cons, List.filter_append, ih fun e he => hd e (List.mem_cons_of_mem _ he)]
    congr 1
    unfold Exchange.numObjs
    simp only [List.filter_cons, ha, ha', Option.isSome_none, Bool.false_eq_true, if_false]
    rfl

theorem recalculate_at (M : MathEnv) (F : FormulaEnv) {ord : Dataset → Except Err (List String)} (hord : ∀ d, ord (atSize c d) = ord d) {d d' : Dataset}
    (h : RDS c good d d') : Units.ER (RDS c good) (recalculateO M F ord d) (recalculateO M F ord d') := by
  have hx : extractNamedParameters d' = extractNamedParameters d := by rw [h.2]; exact extract_at fun e he => (h.1 e he).1
  unfold recalculateO
  rw [show ord d' = ord d by rw [h.2, hord]]
  refine (Units.ER.refl _).bind ?_
  rintro o _ rfl
  unfold recalculate
  rw [hx]
  refine (Units.ER.refl _).bind ?_
  rintro σ _ rfl
  refine (dataset_mapNumE (fun o ho => ?_) h).bind fun _ _ h' => dataset_mapNumE (fun o ho => ?_) h'
  · unfold recalcObj
    rw [ho.1, ho.2.1]
  · unfold repair
    rw [ho.2.2]

theorem subdivided_at (hc : 0 < c) {d d' : Dataset} (h : RDS c good d d') {e e' : Exchange} (he : RP c good e e') :
    RDS c good (subdivided d e) (subdivided d' e') := by
  obtain ⟨hd, rfl⟩ := h
  have hrel := RP_all (c := c) hd
  have hex : List.Forall₂ (RP c good) (subdivided d e).exchanges (subdivided (atSize c d) e').exchanges := by
    refine List.rel_append (List.rel_append (.cons ?_ .nil) ?_) ?_
    · obtain ⟨hp, hg, rfl⟩ := he
      exact ⟨⟨rfl, hp.2.1, rfl⟩, hg, rfl⟩
    · refine Units.map_rel (fun x x' hx => ?_) (Units.filter_rel (p := fun o => o.type == .referenceProduct && o != e) (q := fun o => o.type == .referenceProduct && o != e') (fun x x' hx => ?_) hrel)
      · obtain ⟨⟨hp, -, rfl⟩, -⟩ := hx
        refine ⟨⟨rfl, hp.2.1, rfl⟩, (fun ht => by rcases ht with ht | ht <;> cases ht), ?_⟩
        unfold nonreferenceProduct excAtSize
        simp only [mul_zero]
      · obtain ⟨-, -, rfl⟩ := hx
        obtain ⟨-, -, rfl⟩ := he
        show (x.type == _ && x != e) = (x.type == _ && excAtSize c x != excAtSize c e)
        congr 1
        rw [Bool.eq_iff_iff, bne_iff_ne, bne_iff_ne]
        exact not_congr ⟨fun h => by rw [h], fun h => inj hc h⟩
    · exact Units.forall₂_imp (fun _ _ h => h.1) (Units.filter_rel (p := fun o => o.type != .referenceProduct) (q := fun o => o.type != .referenceProduct) (fun x x' hx => by rw [hx.2.2]; rfl) hrel)
  obtain ⟨h1, h2⟩ := all_RP hex
  refine ⟨h1, ?_⟩
  show ({ atSize c d with exchanges := (subdivided (atSize c d) e').exchanges } : Dataset) = _
  rw [h2]
  rfl

theorem combined_at (hc : 0 < c) (M : MathEnv) (F : FormulaEnv) {ord : Dataset → Except Err (List String)} (hord : ∀ d, ord (atSize c d) = ord d) {d d' : Dataset}
    (h : RDS c good d d') : Units.ER (List.Forall₂ (RDS c good)) (combinedProduction M F ord d) (combinedProduction M F ord d') := by
  unfold combinedProduction
  have hrel : List.Forall₂ (RP c good) d.exchanges d'.exchanges := by rw [h.2]; exact RP_all h.1
  refine Units.ER.mapE (Units.filter_rel (p := fun e => e.type == .referenceProduct && e.amount != 0) (q := fun e => e.type == .referenceProduct && e.amount != 0) (fun e e' he => ?_) hrel)
    fun e e' he => recalculate_at M F hord (subdivided_at hc h he.1)
  obtain ⟨-, -, rfl⟩ := he
  show (e.type == _ && e.amount != 0) = (e.type == _ && c * e.amount != 0)
  congr 1
  rw [Bool.eq_iff_iff, bne_iff_ne, bne_iff_ne]
  exact ⟨mul_ne_zero hc.ne', right_ne_zero_of_mul⟩

theorem RDS.certain {d d' : Dataset} (h : RDS c good d d') : Certain d := fun e he => (h.1 e he).1.2.2

theorem RDS.isGood {d d' : Dataset} (h : RDS c good d d') : Good good d := fun e he => (h.1 e he).2

theorem split_at (hc : 0 < c) {M : MathEnv} {Q : Dataset → Dataset → Prop} (hQ : Normalized c M good Q) {d d' : Dataset} (h : RDS c good d d') :
    Units.ER (List.Forall₂ Q) (handleSplitDataset M d) (handleSplitDataset M d') := by
  have h1 := h.certain
  have h2 := h.isGood
  obtain ⟨-, rfl⟩ := h
  unfold handleSplitDataset
  rw [single_at]
  cases getSingleReferenceProduct d with
  | error x => exact rfl
  | ok rp =>
    show Units.ER _ (splitBy M d rp rp.cls) (splitBy M (atSize c d) (excAtSize c rp) rp.cls)
    match rp.cls with
    | none => exact rfl
    | some .waste => exact waste_at hc hQ d h1 h2
    | some .recyclable => exact recycling_at hc hQ { d with name := d.name ++ ", from " ++ rp.name } h1 h2
    | some .allocatable => exact rfl

end Size

open Size

/-- C135: combined production of an activity described at another size gives the same activities at the other size. The exchanges are plain
numbers; dataset parameters, properties and production volumes may have formulas. -/
theorem C135_combined (c : ℚ) (hc : 0 < c) (M : MathEnv) (F : FormulaEnv) (ord : Dataset → Except Err (List String)) (hord : ∀ d, ord (atSize c d) = ord d)
    (d : Dataset) (hd : ∀ e ∈ d.exchanges, PlainObj e.toNumObj) :
    combinedProduction M F ord (atSize c d) = (combinedProduction M F ord d).map fun l => l.map (atSize c) := by
  have := combined_at (good := fun _ => True) hc M F hord (d := d) (d' := atSize c d) ⟨fun e he => ⟨hd e he, fun _ => trivial⟩, rfl⟩
  revert this
  cases combinedProduction M F ord d with
  | error x =>
    cases combinedProduction M F ord (atSize c d) with
    | error y => intro h; cases h; rfl
    | ok y => intro h; cases h
  | ok l =>
    cases combinedProduction M F ord (atSize c d) with
    | error y => intro h; cases h
    | ok l' =>
      intro h
      show Except.ok l' = Except.ok (l.map (atSize c))
      congr 1
      change List.Forall₂ _ l l' at h
      induction h with
      | nil => rfl
      | cons hab _ ih => rw [ih, hab.2]; rfl

/-- C135: combined production without products gives the same results at every size. -/
theorem C135_combined_without (c : ℚ) (hc : 0 < c) (M : MathEnv) (F : FormulaEnv) (ord : Dataset → Except Err (List String)) (hord : ∀ d, ord (atSize c d) = ord d)
    (d : Dataset) (hd : ∀ e ∈ d.exchanges, PlainObj e.toNumObj) :
    SameUpToTolerance (combinedWithoutProducts M F ord d) (combinedWithoutProducts M F ord (atSize c d)) := by
  refine upTo ?_
  unfold combinedWithoutProducts
  refine (combined_at (good := fun _ => True) hc M F hord (d := d) (d' := atSize c d) ⟨fun e he => ⟨hd e he, fun _ => trivial⟩, rfl⟩).bind fun l l' hl => ?_
  exact Units.ER.flatMapE hl fun x x' hx => split_at hc (nearly hc M) hx

/-- C135: combined production with byproducts gives the same results at every size, for products told apart from one (results of several
byproducts are added up, each normalised on its own). -/
theorem C135_combined_with (c : ℚ) (hc : 0 < c) (M : MathEnv) (F : FormulaEnv) (ord : Dataset → Except Err (List String)) (hord : ∀ d, ord (atSize c d) = ord d)
    (d : Dataset) (hd : ∀ e ∈ d.exchanges, PlainObj e.toNumObj) (hs : Sizeable c d) :
    combinedWithByproducts M F ord (atSize c d) = combinedWithByproducts M F ord d := by
  symm
  refine Units.ER.eq ?_
  unfold combinedWithByproducts
  refine (combined_at (good := fun a => Distinct a ∧ Distinct (c * a)) hc M F hord (d := d) (d' := atSize c d) ⟨fun e he => ⟨hd e he, hs e he⟩, rfl⟩).bind fun l l' hl => ?_
  refine Units.ER.bind (R := List.Forall₂ Eq) (Units.ER.flatMapE hl fun x x' hx => ?_) fun a a' ha => ?_
  · have h1 := hx.certain
    have h2 := hx.isGood
    obtain ⟨-, rfl⟩ := hx
    exact economic_at hc (exactly hc M) x h1 h2
  · rw [List.forall₂_eq_eq_eq] at ha
    rw [ha]
    exact Units.ER.refl _

/-- An activity with two reference products. -/
def jointProducts : Dataset := { name := "a", location := "GLO", type := .transforming, exchanges := [
  { id := "1", name := "p", type := .referenceProduct, cls := some .allocatable, amount := 2, properties := [{ name := "price", amount := 3 }] },
  { id := "2", name := "q", type := .referenceProduct, cls := some .allocatable, amount := 4, properties := [{ name := "price", amount := 1 }] },
  { id := "3", name := "i", type := .fromTechnosphere, amount := 6 }] }

/-- The same with treated waste. -/
def jointWastes : Dataset := { jointProducts with exchanges := jointProducts.exchanges.map fun e => { e with cls := some .waste, amount := -e.amount } }

example : ∀ e ∈ jointProducts.exchanges ++ jointWastes.exchanges, PlainObj e.toNumObj := by
  unfold PlainObj
  decide +kernel

example : Sizeable 3 jointProducts := by
  intro e he ht
  simp only [jointProducts, List.mem_cons, List.not_mem_nil, or_false] at he
  rcases he with rfl | rfl | rfl
  · constructor <;> right <;> right <;> norm_num [abs_of_pos, abs_of_neg]
  · constructor <;> right <;> right <;> norm_num [abs_of_pos, abs_of_neg]
  · rcases ht with ht | ht <;> cases ht

example (M : MathEnv) (F : FormulaEnv) : ∃ a b, combinedProduction M F (fun _ => .ok []) jointProducts = .ok [a, b] ∧ a.exchanges.map (·.amount) = [2, 0, 6] ∧ b.exchanges.map (·.amount) = [4, 0, 6] :=
  ⟨_, _, rfl, by decide +kernel, by decide +kernel⟩

end Ocelot
