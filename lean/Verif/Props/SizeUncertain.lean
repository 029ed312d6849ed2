import Verif.Props.Size
import Verif.Props.Uncertainty

/-! # C135, continued: amounts with uncertainty -/

namespace Ocelot

open Spec

namespace Size

variable {c : ℚ} {M : MathEnv}

/-- An exchange and the same exchange at another size. -/
def RU (c : ℚ) (M : MathEnv) (e e' : Exchange) : Prop := Spec.Settled M e.toNumObj ∧ scaleExchange M e c = .ok e'

theorem RU.scaled {e e' : Exchange} (h : RU c M e e') : ScaledBy c e e' := scaleExchange_scaled h.2

theorem compose_ok {e e' : Exchange} (hc : c ≠ 0) {f : ℚ} (hf : f ≠ 0) (h : RU c M e e') : scaleExchange M e' f = scaleExchange M e (c * f) := by
  rw [← C03_scale_exchange_compose M e c f hc hf h.1, h.2]
  rfl

theorem RU.inj (hc : 0 < c) {a a' b b' : Exchange} (ha : RU c M a a') (hb : RU c M b b') : a' = b' ↔ a = b := by
  have hback : ∀ {e e' : Exchange}, RU c M e e' → scaleExchange M e' (1 / c) = .ok e := by
    intro e e' h
    rw [compose_ok hc.ne' (one_div_ne_zero hc.ne') h, mul_one_div_cancel hc.ne', C01_scale_one]
  constructor
  · intro h
    have h1 := hback ha
    rw [h, hback hb] at h1
    exact (Except.ok.inj h1).symm
  · rintro rfl
    have h1 := ha.2
    rw [hb.2] at h1
    exact (Except.ok.inj h1).symm

/-- What normalising does: it scales everything, for a reference product that is told apart from one. -/
theorem normalize_scales (d : Dataset) (rp : Exchange) (hrp : getSingleReferenceProduct d = .ok rp)
    (h : Distinct rp.amount) (h0 : rp.amount ≠ 0) :
    normalize M d = (mapE (fun e => scaleExchange M e (1 / |rp.amount|)) d.exchanges).map fun ex => { d with exchanges := ex } := by
  unfold normalize
  rw [hrp]
  refine (if_neg h0).trans ?_
  rcases h with h | h | h
  · exact absurd h h0
  · refine (if_neg (by rw [h]; unfold normEpsilon; norm_num)).trans ?_
    rw [h]
    have : mapE (fun e => scaleExchange M e (1 / 1)) d.exchanges = .ok d.exchanges := by
      generalize d.exchanges = l
      induction l with
      | nil => rfl
      | cons a l ih =>
        simp only [mapE, ih]
        rw [div_one, C01_scale_one]
        rfl
    rw [this]
    rfl
  · refine (if_pos (by unfold normEpsilon; exact h)).trans ?_
    cases mapE (fun e => scaleExchange M e (1 / |rp.amount|)) d.exchanges <;> rfl

theorem normalize_RU (hc : 0 < c) (d : Dataset) (ex : List Exchange) (hex : List.Forall₂ (RU c M) d.exchanges ex)
    (h : ∀ rp ∈ referenceProducts d, Distinct rp.amount ∧ Distinct (c * rp.amount)) : normalize M { d with exchanges := ex } = normalize M d := by
  have hrel : List.Forall₂ (RU c M) (referenceProducts d) (referenceProducts { d with exchanges := ex }) :=
    (Units.filter_rel (p := fun e => e.type == .referenceProduct) (q := fun e => e.type == .referenceProduct) (fun a b hab => by rw [hab.scaled.type]) hex).imp fun _ _ h => h.1
  have hs : Units.ER (fun rp rp' => RU c M rp rp' ∧ rp ∈ referenceProducts d) (getSingleReferenceProduct d) (getSingleReferenceProduct { d with exchanges := ex }) := by
    unfold getSingleReferenceProduct
    generalize referenceProducts d = l at hrel ⊢
    generalize referenceProducts { d with exchanges := ex } = l' at hrel ⊢
    cases hrel with
    | nil => exact rfl
    | cons hab htail =>
      cases htail with
      | nil => exact ⟨hab, List.mem_cons_self⟩
      | cons _ _ => exact rfl
  cases hrp : getSingleReferenceProduct d with
  | error x =>
    rw [hrp] at hs
    cases hrp' : getSingleReferenceProduct { d with exchanges := ex } with
    | ok y => rw [hrp'] at hs; exact hs.elim
    | error y =>
      rw [hrp'] at hs
      unfold normalize
      rw [hrp, hrp', show x = y from hs]
      rfl
  | ok rp =>
    rw [hrp] at hs
    cases hrp' : getSingleReferenceProduct { d with exchanges := ex } with
    | error y => rw [hrp'] at hs; exact hs.elim
    | ok rp' =>
      rw [hrp'] at hs
      obtain ⟨hR, hm⟩ := hs
      have ha : rp'.amount = c * rp.amount := by rw [hR.scaled.amount, mul_comm]
      by_cases h0 : rp.amount = 0
      · unfold normalize
        rw [hrp, hrp']
        exact (if_pos (show rp'.amount = 0 by rw [ha, h0, mul_zero])).trans (if_pos h0).symm
      · have h0' : rp'.amount ≠ 0 := by rw [ha]; exact mul_ne_zero hc.ne' h0
        rw [normalize_scales d rp hrp (h rp hm).1 h0, normalize_scales _ rp' hrp' (by rw [ha]; exact (h rp hm).2) h0']
        have : mapE (fun e => scaleExchange M e (1 / |rp'.amount|)) ex = mapE (fun e => scaleExchange M e (1 / |rp.amount|)) d.exchanges := by
          refine (Units.ER.eq ((Units.ER.mapE hex (Q := Eq) fun a b hab => ?_).mono fun l l' hl => by rwa [List.forall₂_eq_eq_eq] at hl)).symm
          rw [compose_ok hc.ne' (one_div_ne_zero (abs_ne_zero.mpr h0')) hab, ha, abs_mul, abs_of_pos hc]
          have : c * (1 / (c * |rp.amount|)) = 1 / |rp.amount| := by
            have := abs_ne_zero.mpr h0
            have := hc.ne'
            field_simp
          rw [this]
          exact Units.ER.refl _
        show (mapE (fun e => scaleExchange M e (1 / |rp'.amount|)) ex).map _ = _
        rw [this]

theorem isAllocatable_RU {e e' : Exchange} (h : RU c M e e') : isAllocatable e = isAllocatable e' := by
  unfold isAllocatable
  rw [h.scaled.type, h.scaled.cls]

theorem settled_scale {e : Exchange} {f : ℚ} (hf : f ≠ 0) (h : Spec.Settled M e.toNumObj) : ∃ y, scaleExchange M e f = .ok y ∧ Spec.Settled M y.toNumObj := by
  obtain ⟨o₁, o₂, h1, -, -, hs⟩ := C03_scale_compose M e.toNumObj f 1 hf one_ne_zero h
  refine ⟨{ e with toNumObj := o₁ }, ?_, hs⟩
  unfold scaleExchange
  rw [h1]
  rfl

theorem certain_RU {e : Exchange} (h : e.uncertainty = none) : RU c M e (excAtSize c e) := by
  refine ⟨.certain h, ?_⟩
  rw [scaleExchange_certain c h]
  unfold excAtSize
  rw [mul_comm]

theorem chosen_RU {e e' : Exchange} (h : RU c M e e') : RU c M (chosenProduct e) (chosenProduct e') := by
  have h1 : chosenProduct e' = excAtSize c (chosenProduct e) := by
    rw [h.scaled]
    unfold chosenProduct excAtSize
    simp only [mul_comm]
  rw [h1]
  exact certain_RU rfl

theorem nonreference_RU {e e' : Exchange} (h : RU c M e e') : RU c M (nonreferenceProduct e) (nonreferenceProduct e') := by
  have h1 : nonreferenceProduct e' = excAtSize c (nonreferenceProduct e) := by
    rw [h.scaled]
    unfold nonreferenceProduct excAtSize
    simp only [mul_zero]
  rw [h1]
  exact certain_RU rfl

theorem choose_RU (hc : 0 < c) (d : Dataset) (ex : List Exchange) (hex : List.Forall₂ (RU c M) d.exchanges ex) {e e' : Exchange} (he : RU c M e e')
    (f : ℚ) (hf : f ≠ 0) (h : Distinct e.amount ∧ Distinct (c * e.amount)) :
    chooseReferenceProduct M { d with exchanges := ex } e' f = chooseReferenceProduct M d e f := by
  symm
  have ha : e'.amount = c * e.amount := by rw [he.scaled.amount, mul_comm]
  refine Units.ER.eq ?_
  unfold chooseReferenceProduct
  refine Units.ER.ite (by rw [ha, mul_eq_zero]; exact ⟨.inr, fun h => h.resolve_left hc.ne'⟩) (fun _ => rfl) fun _ => ?_
  refine Units.ER.bind (Units.ER.filterE hex fun a b hab => isAllocatable_RU hab) fun prod prod' hprod => ?_
  refine Units.ER.bind (Units.ER.filterE hex (p := fun e => do let b ← isAllocatable e; return !b) (q := fun e => do let b ← isAllocatable e; return !b)
    fun a b hab => by simp only [isAllocatable_RU hab]) fun non non' hnon => ?_
  refine Units.ER.bind (R := List.Forall₂ fun y y' => RU c M y y' ∧ y.type ≠ .referenceProduct) (Units.ER.mapE hnon fun a b hab => ?_) fun sc sc' hsc => ?_
  · obtain ⟨hab, hna⟩ := hab
    obtain ⟨y, hy, hys⟩ := settled_scale hf hab.1
    have hyc : scaleExchange M b f = scaleExchange M y c := by
      rw [compose_ok hc.ne' hf hab]
      have := C03_scale_exchange_compose M a f c hf hc.ne' hab.1
      rw [hy] at this
      rw [mul_comm, ← this]
      rfl
    obtain ⟨y', hy', -⟩ := settled_scale hc.ne' hys
    rw [hy, hyc, hy']
    refine ⟨⟨hys, hy'⟩, fun ht => ?_⟩
    rw [(scaleExchange_scaled hy).type] at ht
    simp only [isAllocatable, ht] at hna
    cases hna
  · have hpre : List.Forall₂ (RU c M) ([chosenProduct e] ++ (prod.filter fun x => x != e).map nonreferenceProduct ++ sc)
        ([chosenProduct e'] ++ (prod'.filter fun x => x != e').map nonreferenceProduct ++ sc') := by
      refine List.rel_append (List.rel_append (.cons (chosen_RU he) .nil) ?_) (hsc.imp fun _ _ h => h.1)
      rw [List.forall₂_map_left_iff, List.forall₂_map_right_iff]
      refine (Units.filter_rel (p := fun x => x != e) (q := fun x => x != e') (fun a b hab => ?_) (hprod.imp fun _ _ h => h.1)).imp fun a b hab => nonreference_RU hab.1
      rw [Bool.eq_iff_iff, bne_iff_ne, bne_iff_ne]
      exact not_congr (hab.inj hc he).symm
    have := normalize_RU hc { d with exchanges := [chosenProduct e] ++ (prod.filter fun x => x != e).map nonreferenceProduct ++ sc } _ hpre (by
      intro rp hrp
      unfold referenceProducts at hrp
      obtain ⟨hx, ht⟩ := List.mem_filter.mp hrp
      simp only [List.mem_append, List.mem_map, List.mem_singleton] at hx
      rcases hx with (rfl | ⟨y, -, rfl⟩) | hy
      · exact h
      · cases ht
      · exfalso
        have : ∀ {l l' : List Exchange}, List.Forall₂ (fun y y' => RU c M y y' ∧ y.type ≠ .referenceProduct) l l' → ∀ x ∈ l, x.type ≠ .referenceProduct := by
          intro l l' hl
          induction hl with
          | nil => intro x hx; cases hx
          | cons hab _ ih =>
            intro x hx
            rcases List.mem_cons.mp hx with rfl | hx
            · exact hab.2
            · exact ih x hx
        exact this hsc rp hy (eq_of_beq ht))
    show Units.ER Eq (normalize M _) (normalize M { d with exchanges := _ })
    rw [← this]
    exact Units.ER.refl _

theorem related (c : ℚ) (M : MathEnv) {l ex : List Exchange} (hd : ∀ e ∈ l, Spec.Settled M e.toNumObj) (hex : mapE (fun e => scaleExchange M e c) l = .ok ex) :
    List.Forall₂ (RU c M) l ex := by
  have := mapE_ok_iff.mp hex
  clear hex
  induction this with
  | nil => exact .nil
  | cons hab _ ih => exact .cons ⟨hd _ List.mem_cons_self, hab⟩ (ih fun e he => hd e (List.mem_cons_of_mem _ he))

/-- The factors do not depend on the uncertainty. -/
def strip (e : Exchange) : Exchange := { e with uncertainty := none }

theorem factors_strip (l : List Exchange) : economicFactors (l.map strip) = economicFactors l := by
  unfold economicFactors
  have h : ((l.map strip).filter hasTrueValue).map revenue = (l.filter hasTrueValue).map revenue := by
    rw [List.filter_map, List.map_map]; rfl
  have h2 : (l.map strip).any hasTrueValue = l.any hasTrueValue := by rw [List.any_map]; rfl
  simp only [List.map_eq_nil_iff, h, h2, List.map_map]
  rfl

theorem check_strip (l : List Exchange) : forE checkEconomicExchange (l.map strip) = forE checkEconomicExchange l := by
  induction l with
  | nil => rfl
  | cons a l ih =>
    simp only [List.map_cons, forE, ih]
    rfl

theorem strip_RU {l l' : List Exchange} (h : List.Forall₂ (RU c M) l l') : l'.map strip = (l.map strip).map (excAtSize c) := by
  induction h with
  | nil => rfl
  | cons hab _ ih =>
    simp only [List.map_cons, ih]
    congr 1
    rw [hab.scaled]
    unfold strip excAtSize
    simp only [mul_comm]

theorem factors_RU (hc : 0 < c) {l l' : List Exchange} (h : List.Forall₂ (RU c M) l l') : economicFactors l' = economicFactors l := by
  rw [← factors_strip l', strip_RU h, factors_at hc, factors_strip]

theorem check_RU (hc : 0 < c) {l l' : List Exchange} (h : List.Forall₂ (RU c M) l l') : forE checkEconomicExchange l' = forE checkEconomicExchange l := by
  rw [← check_strip l', strip_RU h, check_at hc, check_strip]

end Size

open Size

/-- C135, for amounts with uncertainty that is in order: normalising gives the same result, uncertainty included. -/
theorem C135_uncertain (c : ℚ) (hc : 0 < c) (M : MathEnv) (d : Dataset) (ex : List Exchange) (hd : ∀ e ∈ d.exchanges, Spec.Settled M e.toNumObj)
    (hex : mapE (fun e => scaleExchange M e c) d.exchanges = .ok ex) (hs : Sizeable c d) : normalize M { d with exchanges := ex } = normalize M d := by
  refine normalize_RU hc d ex (related c M hd hex) fun rp hrp => ?_
  obtain ⟨h1, h2⟩ := List.mem_filter.mp hrp
  exact hs rp h1 (.inl (eq_of_beq h2))

/-- C135, for amounts with uncertainty that is in order: so does allocation by revenue if every product gets a share. -/
theorem C135_uncertain_economic (c : ℚ) (hc : 0 < c) (M : MathEnv) (d : Dataset) (ex : List Exchange) (hd : ∀ e ∈ d.exchanges, Spec.Settled M e.toNumObj)
    (hex : mapE (fun e => scaleExchange M e c) d.exchanges = .ok ex) (hs : Sizeable c d)
    (hshare : ∀ prod fs, allocatableProduction d = .ok prod → economicFactors prod = .ok fs → ∀ f ∈ fs, f ≠ 0) :
    economicAllocation M { d with exchanges := ex } = economicAllocation M d := by
  have hrel := related c M hd hex
  symm
  refine Units.ER.eq ?_
  unfold economicAllocation
  refine Units.ER.bind (Units.ER.mem (Units.ER.filterE hrel fun a b hab => isAllocatable_RU hab)) fun prod prod' hprod => ?_
  obtain ⟨hprod, hp, -⟩ := hprod
  have hprod' : List.Forall₂ (RU c M) prod prod' := hprod.imp fun _ _ h => h.1
  rw [check_RU hc hprod', factors_RU hc hprod']
  refine (Units.ER.refl _).bind fun _ _ _ => ?_
  cases hfs : economicFactors prod with
  | error x => exact rfl
  | ok fs =>
    have hf := hshare prod fs hp hfs
    have hmem := filterE_sub hp
    show Units.ER Eq (mapE _ (fs.zip prod)) (mapE _ (fs.zip prod'))
    clear hp hfs hprod hshare
    refine Units.ER.mono (R := List.Forall₂ Eq) ?_ fun l l' hl => by rwa [List.forall₂_eq_eq_eq] at hl
    induction hprod' generalizing fs with
    | nil => cases fs <;> exact List.Forall₂.nil
    | cons hab _ ih =>
      cases fs with
      | nil => exact List.Forall₂.nil
      | cons f fs =>
        refine Units.ER.bind (R := Eq) ?_ fun y y' hy => (ih fs (fun f' hf' => hf f' (List.mem_cons_of_mem _ hf'))
          fun a ha => hmem a (List.mem_cons_of_mem _ ha)).bind fun r r' hr => List.Forall₂.cons hy hr
        have ha := hmem _ List.mem_cons_self
        show Units.ER Eq (chooseReferenceProduct M d _ f) (chooseReferenceProduct M { d with exchanges := ex } _ f)
        rw [choose_RU hc d ex hrel hab f (hf f List.mem_cons_self) (hs _ ha.1 (production_type ha.2))]
        exact Units.ER.refl _

/-- An input with a normal distribution beside the product. -/
def normalInput : Dataset := { name := "a", location := "GLO", type := .transforming, exchanges := [
  { name := "p", type := .referenceProduct, amount := 2, properties := [{ name := "price", amount := 3 }] },
  { name := "i", type := .fromTechnosphere, amount := 6, uncertainty := some { kind := some .normal, mean := some 6, variance := some 1 } }] }

example (M : MathEnv) : ∀ e ∈ normalInput.exchanges, Spec.Settled M e.toNumObj := by
  intro e he
  simp only [normalInput, List.mem_cons, List.not_mem_nil, or_false] at he
  rcases he with rfl | rfl
  · exact .certain rfl
  · exact .normal _ 1 rfl rfl (by norm_num) rfl

example : Sizeable 3 normalInput := by
  intro e he ht
  simp only [normalInput, List.mem_cons, List.not_mem_nil, or_false] at he
  rcases he with rfl | rfl
  · constructor <;> right <;> right <;> norm_num [abs_of_pos, abs_of_neg]
  · rcases ht with ht | ht <;> cases ht

example : (mapE (fun e => scaleExchange sampleM e 3) normalInput.exchanges).map (fun ex => ex.map fun e => (e.amount, e.uncertainty.bind (·.variance))) =
    .ok [(6, none), (18, some 9)] := by decide +kernel

example : ∀ prod fs, allocatableProduction normalInput = .ok prod → economicFactors prod = .ok fs → ∀ f ∈ fs, f ≠ 0 := by
  intro prod fs h1 h2
  have h : allocatableProduction normalInput = .ok (normalInput.exchanges.take 1) := by decide +kernel
  rw [h] at h1
  cases h1
  have h' : economicFactors (normalInput.exchanges.take 1) = .ok [1] := by decide +kernel
  rw [h'] at h2
  cases h2
  decide +kernel

end Ocelot
