import Verif.Proofs.Rounded
import Verif.Proofs.Economic
import Verif.Props.Utils

/-!
# Properties C120–C123: what floating point arithmetic does to the exact statements

The other properties speak of exact numbers.  Here every multiplication, division and addition is
followed by a rounding `R` with relative error at most `2⁻⁵³` (`Spec.Rounding`; `Spec.double` is IEEE
754 double precision with round-to-nearest-even, up to overflow and underflow).
-/

namespace Ocelot
open Spec

/-! ## C120 -/

/-- C120: after a successful normalisation the reference product has its old sign and an absolute
amount within `1.1e-14` of one, whatever its amount was before; every exchange keeps everything but
amount and uncertainty. -/
theorem C120_normalised (R : Rounding) (M : MathEnv) (ds out : Dataset) (h : normalizeR R M ds = .ok out) :
    ∃ rp rp', refs ds = [rp] ∧ refs out = [rp'] ∧ rp.amount ≠ 0 ∧ (0 < rp'.amount ↔ 0 < rp.amount) ∧
      |(|rp'.amount| - 1)| ≤ 11 / 10 ^ 15 ∧ out = { ds with exchanges := out.exchanges } ∧
      List.Forall₂ (fun e e' => e' = { e with amount := e'.amount, uncertainty := e'.uncertainty }) ds.exchanges out.exchanges := by
  obtain ⟨rp, h1, h0, ⟨hc, rfl⟩ | ⟨hc, ex, h2, rfl⟩⟩ := normalizeR_inv h
  · refine ⟨rp, rp, h1, h1, h0, Iff.rfl, kept_near_one R h0 hc, rfl, ?_⟩
    exact List.forall₂_same.2 fun _ _ => rfl
  · have hp : 0 < |rp.amount| := abs_pos.mpr h0
    have hfp : 0 < R.fl (1 / |rp.amount|) := R.fl_pos (by positivity)
    have hf1 : R.fl (1 / |rp.amount|) ≠ 1 := by
      intro e
      rw [e] at hc
      apply hc
      rw [sub_self, R.zero]
      norm_num
    have hall : List.Forall₂ (fun e e' : Exchange => e' = { e with amount := R.fl (e.amount * R.fl (1 / |rp.amount|)), uncertainty := e'.uncertainty }) ds.exchanges ex :=
      (mapE_ok_iff.mp h2).imp fun _ _ h => scaleExchangeR_frame hf1 h
    have hfil : List.Forall₂ (fun e e' : Exchange => e' = { e with amount := R.fl (e.amount * R.fl (1 / |rp.amount|)), uncertainty := e'.uncertainty }) (refs ds) (refs { ds with exchanges := ex }) := by
      refine forall₂_filter_rel hall ?_
      intro a b hab
      rw [hab]
    rw [h1] at hfil
    obtain ⟨rp', hrp', hr⟩ : ∃ rp', rp' = { rp with amount := R.fl (rp.amount * R.fl (1 / |rp.amount|)), uncertainty := rp'.uncertainty } ∧ refs { ds with exchanges := ex } = [rp'] := by
      generalize refs { ds with exchanges := ex } = r at hfil
      cases hfil with
      | cons ha hb => cases hb; exact ⟨_, ha, rfl⟩
    have ham : rp'.amount = R.fl (rp.amount * R.fl (1 / |rp.amount|)) := by rw [hrp']
    refine ⟨rp, rp', h1, hr, h0, ?_, ?_, rfl, ?_⟩
    · rw [ham]
      constructor
      · intro hpos
        by_contra hn
        have : R.fl (rp.amount * R.fl (1 / |rp.amount|)) ≤ 0 := R.fl_nonpos (mul_nonpos_of_nonpos_of_nonneg (not_lt.1 hn) hfp.le)
        linarith
      · intro hpos
        exact R.fl_pos (mul_pos hpos hfp)
    · rw [ham]
      refine le_trans (scaled_near_one R h0) ?_
      have hu := R.small
      have : (3 : ℚ) * (1 / 2 ^ 53) ≤ 11 / 10 ^ 15 := by norm_num
      linarith
    · exact hall.imp fun a b hab => by rw [hab]

/-- C120: normalising a second time changes nothing, in floating point arithmetic as well: the rounding
errors of the first normalisation stay below the tolerance. -/
theorem C120_idempotent (R : Rounding) (M : MathEnv) (ds out : Dataset) (h : normalizeR R M ds = .ok out) :
    normalizeR R M out = .ok out := by
  obtain ⟨rp, h1, h0, ⟨hc, rfl⟩ | ⟨hc, ex, h2, rfl⟩⟩ := normalizeR_inv h
  · exact normalizeR_of_close h1 h0 hc
  · have hf1 : R.fl (1 / |rp.amount|) ≠ 1 := by
      intro e
      rw [e] at hc
      apply hc
      rw [sub_self, R.zero]
      norm_num
    have hall : List.Forall₂ (fun e e' : Exchange => e' = { e with amount := R.fl (e.amount * R.fl (1 / |rp.amount|)), uncertainty := e'.uncertainty }) ds.exchanges ex :=
      (mapE_ok_iff.mp h2).imp fun _ _ h => scaleExchangeR_frame hf1 h
    have hfil : List.Forall₂ (fun e e' : Exchange => e' = { e with amount := R.fl (e.amount * R.fl (1 / |rp.amount|)), uncertainty := e'.uncertainty }) (refs ds) (refs { ds with exchanges := ex }) := by
      refine forall₂_filter_rel hall ?_
      intro a b hab
      rw [hab]
    rw [h1] at hfil
    obtain ⟨rp', hrp', hr⟩ : ∃ rp', rp' = { rp with amount := R.fl (rp.amount * R.fl (1 / |rp.amount|)), uncertainty := rp'.uncertainty } ∧ refs { ds with exchanges := ex } = [rp'] := by
      generalize refs { ds with exchanges := ex } = r at hfil
      cases hfil with
      | cons ha hb => cases hb; exact ⟨_, ha, rfl⟩
    have ham : rp'.amount = R.fl (rp.amount * R.fl (1 / |rp.amount|)) := by rw [hrp']
    have hn := scaled_near_one R h0
    rw [← ham] at hn
    refine normalizeR_of_close hr ?_ (close_test R hn)
    intro h
    rw [h, abs_zero, zero_sub, abs_neg, abs_one] at hn
    have : (3 : ℚ) * R.u < 1 := by
      have := R.small
      have e : (3 : ℚ) * (1 / 2 ^ 53) < 1 := by norm_num
      linarith
    linarith

/-- With exact arithmetic the rounded model is the exact one, so that C120 speaks about the same
function as C10. -/
theorem C120_exact (M : MathEnv) (ds : Dataset) : normalizeR Spec.exact M ds = normalize M ds := by
  have hu : ∀ (o : NumObj) (u : Unc), uniformRepairR Spec.exact o u = uniformRepair o u := by
    intro o u
    have ha : ∀ a b : ℚ, allcloseR Spec.exact a b = allclose a b := by
      intro a b; simp [allcloseR, allclose, Spec.exact]
    rcases hmn : u.minimum with _ | mn
    · simp [uniformRepairR, uniformRepair, hmn]
    rcases hmx : u.maximum with _ | mx
    · simp [uniformRepairR, uniformRepair, hmn, hmx]
    rw [uniformRepairR_eq hmn hmx, uniformRepair_eq hmn hmx]
    simp only [ha]
    rfl
  have hs : ∀ (o : NumObj) (f : ℚ), o.scaleR Spec.exact M f = o.scale M f := by
    intro o f
    unfold NumObj.scaleR NumObj.scale
    split
    · rfl
    · rcases o.uncertainty with _ | u
      · rfl
      · rcases hk : u.kind with _ | k
        · simp only [hk]; rfl
        · have hn : normalRescaleR Spec.exact o u f = normalRescale o u f := by
            simp only [normalRescaleR, normalRescale, Spec.exact, id, sq]
          have hv : uniformRescaleR Spec.exact o u f = uniformRescale o u f := by
            simp only [uniformRescaleR, uniformRescale, hu]; rfl
          cases k <;> simp only [hk]
          all_goals first | exact hn | exact hv | rfl
  have he : ∀ (e : Exchange) (f : ℚ), scaleExchangeR Spec.exact M e f = scaleExchange M e f := by
    intro e f
    unfold scaleExchangeR scaleExchange
    rw [hs]
  unfold normalizeR normalize
  simp only [he]
  rfl

theorem fl_49 : Spec.double.fl (1 / 49) = 5882252574524729 / 2 ^ 58 := by
  have := roundDouble_of (x := 1 / 49) (-6) 5882252574524729 (by norm_num) (by norm_num) (by norm_num [abs_lt])
  rw [show Spec.double.fl = roundDouble from rfl, this]
  norm_num

theorem fl_49_back : Spec.double.fl (49 * Spec.double.fl (1 / 49)) = 1 - 1 / 2 ^ 53 := by
  rw [fl_49]
  have := roundDouble_of (x := 49 * (5882252574524729 / 2 ^ 58)) (-1) 9007199254740991 (by norm_num) (by norm_num) (by norm_num [abs_lt])
  rw [show Spec.double.fl = roundDouble from rfl, this]
  norm_num

theorem fl_49_test : ¬ |Spec.double.fl (Spec.double.fl (1 / 49) - 1)| ≤ 1 / 10 ^ 14 := by
  have h := Spec.double.le_abs_fl (Spec.double.fl (1 / 49) - 1)
  rw [fl_49] at h ⊢
  have e : |(5882252574524729 / 2 ^ 58 - 1 : ℚ)| = 1 - 5882252574524729 / 2 ^ 58 := by
    rw [abs_of_neg (by norm_num)]; ring
  rw [e] at h
  have hu : Spec.double.u = 1 / 2 ^ 53 := rfl
  rw [hu] at h
  intro hc
  have := le_trans h hc
  norm_num at this

/-- C120: the tolerance is needed, because exact normalisation (C10) is lost in floating point
arithmetic: an activity that makes 49 units ends up with `1 - 2⁻⁵³` units in double precision. -/
theorem C120_not_exact (M : MathEnv) : ∃ ds out rp, normalizeR Spec.double M ds = .ok out ∧ refs out = [rp] ∧
    rp.amount = 1 - 1 / 2 ^ 53 := by
  let ds : Dataset := { name := "x", exchanges := [{ name := "p", type := .referenceProduct, amount := 49 }] }
  refine ⟨ds, { ds with exchanges := [{ name := "p", type := .referenceProduct, amount := 1 - 1 / 2 ^ 53 }] },
    { name := "p", type := .referenceProduct, amount := 1 - 1 / 2 ^ 53 }, ?_, rfl, rfl⟩
  have hne : Spec.double.fl (1 / 49) ≠ 1 := by rw [fl_49]; norm_num
  have h1 : getSingleReferenceProduct ds = .ok { name := "p", type := .referenceProduct, amount := 49 } := by
    rw [getSingle_ok]; rfl
  have ha : |(49 : ℚ)| = 49 := abs_of_pos (by norm_num)
  unfold normalizeR
  rw [h1]
  simp only [ebind_ok, ha, normEpsilon, gt_iff_lt, not_le.1 fl_49_test, if_true]
  rw [if_neg (by norm_num)]
  simp only [epure, ebind_ok, ds, mapE, scaleExchangeR, NumObj.scaleR, hne, if_false, fl_49_back]

/-! ## C121 -/

/-- C121: scaling a well-formed uniform or triangular distribution never fails in floating point
arithmetic and never pushes the amount out of its bounds: either the rounded bounds coincide and the
uncertainty is dropped, or the result is well-formed again, between the rounded images of the old
bounds. -/
theorem C121_bounds (R : Rounding) (M : MathEnv) (o : NumObj) (u : Unc) (lo hi f : ℚ) (h : Bounded o u lo hi) (hf : f ≠ 1) :
    ∃ o', o.scaleR R M f = .ok o' ∧ o'.amount = R.fl (o.amount * f) ∧
      ((R.fl (lo * f) = R.fl (hi * f) ∧ o'.uncertainty = none) ∨
       (R.fl (lo * f) ≠ R.fl (hi * f) ∧ ∃ u', Bounded o' u' (min (R.fl (lo * f)) (R.fl (hi * f))) (max (R.fl (lo * f)) (R.fl (hi * f))))) := by
  obtain ⟨hu, hk, hmn, hmx, h1, h2⟩ := h
  have hb : min (R.fl (lo * f)) (R.fl (hi * f)) ≤ R.fl (o.amount * f) ∧ R.fl (o.amount * f) ≤ max (R.fl (lo * f)) (R.fl (hi * f)) := by
    rcases le_total 0 f with hp | hn
    · exact ⟨min_le_of_left_le (R.mono (mul_le_mul_of_nonneg_right h1 hp)),
        le_max_of_le_right (R.mono (mul_le_mul_of_nonneg_right h2 hp))⟩
    · exact ⟨min_le_of_right_le (R.mono (mul_le_mul_of_nonpos_right h2 hn)),
        le_max_of_le_left (R.mono (mul_le_mul_of_nonpos_right h1 hn))⟩
  have hbd : ¬ (R.fl (o.amount * f) < min (R.fl (lo * f)) (R.fl (hi * f)) ∨ R.fl (o.amount * f) > max (R.fl (lo * f)) (R.fl (hi * f))) := by
    push Not
    exact hb
  have hcol : R.fl (lo * f) = R.fl (hi * f) → R.fl (lo * f) = R.fl (hi * f) ∧ R.fl (hi * f) = R.fl (o.amount * f) := by
    intro he
    refine ⟨he, ?_⟩
    rw [he, min_self, max_self] at hb
    exact le_antisymm hb.1 hb.2
  have hmm : min (min (R.fl (lo * f)) (R.fl (hi * f))) (max (R.fl (lo * f)) (R.fl (hi * f))) = min (R.fl (lo * f)) (R.fl (hi * f)) := min_eq_left min_le_max
  have hMM : max (min (R.fl (lo * f)) (R.fl (hi * f))) (max (R.fl (lo * f)) (R.fl (hi * f))) = max (R.fl (lo * f)) (R.fl (hi * f)) := max_eq_right min_le_max
  have hne' : R.fl (lo * f) ≠ R.fl (hi * f) → ¬ (min (R.fl (lo * f)) (R.fl (hi * f)) = max (R.fl (lo * f)) (R.fl (hi * f)) ∧ max (R.fl (lo * f)) (R.fl (hi * f)) = R.fl (o.amount * f)) := by
    rintro hn ⟨hx, _⟩
    rcases le_total (R.fl (lo * f)) (R.fl (hi * f)) with hle | hle
    · rw [min_eq_left hle, max_eq_right hle] at hx; exact hn hx
    · rw [min_eq_right hle, max_eq_left hle] at hx; exact hn hx.symm
  rcases hk with hk | ⟨hk, hmode⟩
  · have hstep : o.scaleR R M f = uniformRescaleR R o u f := by
      simp only [NumObj.scaleR, hf, if_false, hu, hk]
    rw [hstep]
    simp only [uniformRescaleR, hmn, hmx, getKey_some, ebind_ok]
    rw [uniformRepairR_eq rfl rfl]
    by_cases hc : R.fl (lo * f) = R.fl (hi * f)
    · rw [if_pos (hcol hc)]
      exact ⟨_, rfl, rfl, Or.inl ⟨hc, rfl⟩⟩
    · rw [if_neg (fun hh => hc hh.1), if_neg hbd]
      split
      · rw [triangularRepair_eq rfl rfl]
        simp only [hmm, hMM]
        rw [if_neg (hne' hc), if_neg hbd]
        exact ⟨_, rfl, rfl, Or.inr ⟨hc, _, ⟨rfl, Or.inr ⟨rfl, rfl⟩, rfl, rfl, hb.1, hb.2⟩⟩⟩
      · exact ⟨_, rfl, rfl, Or.inr ⟨hc, _, ⟨rfl, Or.inl hk, rfl, rfl, hb.1, hb.2⟩⟩⟩
  · have hstep : o.scaleR R M f = triangularRescaleR R o u f := by
      simp only [NumObj.scaleR, hf, if_false, hu, hk]
    rw [hstep]
    simp only [triangularRescaleR, hmn, hmx, hmode, getKey_some, ebind_ok]
    rw [triangularRepair_eq rfl rfl]
    by_cases hc : R.fl (lo * f) = R.fl (hi * f)
    · rw [if_pos (hcol hc)]
      exact ⟨_, rfl, rfl, Or.inl ⟨hc, rfl⟩⟩
    · rw [if_neg (fun hh => hc hh.1), if_neg hbd]
      exact ⟨_, rfl, rfl, Or.inr ⟨hc, _, ⟨rfl, Or.inr ⟨hk, rfl⟩, rfl, rfl, hb.1, hb.2⟩⟩⟩

/-- The hypotheses hold for a skewed triangular distribution; in double precision a tenth of it keeps
its order. -/
example : ∃ o' u' lo hi, NumObj.scaleR Spec.double sampleM { amount := 3, uncertainty := some { kind := some .triangular, minimum := some 1, mode := some 3, maximum := some 4 } } (1 / 10) = .ok o' ∧ Bounded o' u' lo hi := by
  obtain ⟨o', h1, -, h2⟩ := C121_bounds Spec.double sampleM { amount := 3, uncertainty := some { kind := some .triangular, minimum := some 1, mode := some 3, maximum := some 4 } }
    { kind := some .triangular, minimum := some 1, mode := some 3, maximum := some 4 } 1 4 (1 / 10)
    ⟨rfl, Or.inr ⟨rfl, rfl⟩, rfl, rfl, by norm_num, by norm_num⟩ (by norm_num)
  rcases h2 with ⟨h2, -⟩ | ⟨-, u', h2⟩
  · exfalso
    have a := abs_le.1 (Spec.double.close (1 * (1 / 10)))
    have b := abs_le.1 (Spec.double.close (4 * (1 / 10)))
    rw [abs_of_pos (by norm_num : (0 : ℚ) < 1 * (1 / 10))] at a
    rw [abs_of_pos (by norm_num : (0 : ℚ) < 4 * (1 / 10)), ← h2] at b
    have hu : Spec.double.u = 1 / 2 ^ 53 := rfl
    rw [hu] at a b
    norm_num at a b
    linarith [a.2, b.1]
  · exact ⟨o', u', _, _, h1, h2⟩

/-! ## C122 -/

theorem near_one_abs {u : ℚ} {m : ℕ} {x : ℚ} (h0 : 0 ≤ u) (h1 : u ≤ 1) (hm : m * u ≤ 1 / 2) (h : Near u m x 1) : |x - 1| ≤ 2 * m * u := by
  have := near_abs h0 h1 (by norm_num) hm h
  linarith

theorem map_sum_split {α} (p : α → Bool) (f : α → ℚ) (l : List α) : (l.map f).sum = ((l.filter p).map f).sum + ((l.filter fun x => !p x).map f).sum := by
  induction l with
  | nil => simp
  | cons x l ih =>
    cases hp : p x
    · simp [hp, ih]; ring
    · simp [hp, ih]; ring

theorem map_mul_sum {α} (f : α → ℚ) (c : ℚ) (l : List α) : (l.map fun x => f x * c).sum = (l.map f).sum * c := by
  induction l with
  | nil => simp
  | cons x l ih => simp only [List.map_cons, List.sum_cons, ih]; ring

theorem revenueR_eq (R : Rounding) (e : Exchange) : revenueR R e = R.fl (rev e) := by
  rw [← revenue_eq]; rfl

theorem trueValueR_eq (R : Rounding) (e : Exchange) : trueValueR R e = R.fl (tvWeight e) := by
  rw [← tvWeight_eq]; rfl

/-- C122 (the form used in proofs): with non-negative prices, amounts and true values and a positive
revenue (and, where a product has a true value, a positive sum of true values), the rounded allocation
factors add up to one up to `3 + k + k₂ + k₃` roundings, where the `k`s count the additions in the three
sums formed by pandas; the order of these additions does not matter. -/
theorem economic_near (R : Rounding) (prod : List Exchange) {k k2 k3 : ℕ} {total tvRev tvSum : ℚ}
    (hpos : ∀ e ∈ prod, 0 ≤ rev e ∧ 0 ≤ tvWeight e)
    (ht : SumsTo R (prod.map (revenueR R)) k total)
    (hr : SumsTo R ((prod.filter hasTrueValue).map (revenueR R)) k2 tvRev)
    (hs : SumsTo R (prod.map (trueValueR R)) k3 tvSum)
    (h0 : 0 < total) (hv : (∃ e ∈ prod, hasTrueValue e = true) → 0 < tvSum) :
    Near R.u (3 + k + k2 + k3) (prod.map (economicFactorR R total tvRev tvSum)).sum 1 := by
  have u0 := R.nonneg
  have u1 := R.u_lt.le
  have pr : ∀ e ∈ prod, 0 ≤ revenueR R e := fun e he => by rw [revenueR_eq]; exact R.fl_nonneg (hpos e he).1
  have pt : ∀ e ∈ prod, 0 ≤ trueValueR R e := fun e he => by rw [trueValueR_eq]; exact R.fl_nonneg (hpos e he).2
  have nt := sumsTo_near ht (by intro x hx; obtain ⟨e, he, rfl⟩ := List.mem_map.1 hx; exact pr e he)
  have nr := sumsTo_near hr (by intro x hx; obtain ⟨e, he, rfl⟩ := List.mem_map.1 hx; exact pr e (List.mem_filter.1 he).1)
  have ns := sumsTo_near hs (by intro x hx; obtain ⟨e, he, rfl⟩ := List.mem_map.1 hx; exact pt e he)
  have prv : 0 ≤ tvRev := sumsTo_nonneg hr (by intro x hx; obtain ⟨e, he, rfl⟩ := List.mem_map.1 hx; exact pr e (List.mem_filter.1 he).1)
  set A := ((prod.filter hasTrueValue).map (revenueR R)).sum with hA
  set B := ((prod.filter fun e => !hasTrueValue e).map (revenueR R)).sum with hB
  have hAB : (prod.map (revenueR R)).sum = A + B := map_sum_split hasTrueValue (revenueR R) prod
  have A0 : 0 ≤ A := List.sum_nonneg (by intro x hx; obtain ⟨e, he, rfl⟩ := List.mem_map.1 hx; exact pr e (List.mem_filter.1 he).1)
  have B0 : 0 ≤ B := List.sum_nonneg (by intro x hx; obtain ⟨e, he, rfl⟩ := List.mem_map.1 hx; exact pr e (List.mem_filter.1 he).1)
  -- products without true value
  have part1 : Near R.u 1 ((prod.filter fun e => !hasTrueValue e).map (economicFactorR R total tvRev tvSum)).sum (B / total) := by
    have := near_sum (u := R.u) (m := 1) (economicFactorR R total tvRev tvSum) (fun e => revenueR R e * total⁻¹) (prod.filter fun e => !hasTrueValue e) (by
      intro e he
      have he' := List.mem_filter.1 he
      have : hasTrueValue e = false := by simpa using he'.2
      simp only [economicFactorR, this, Bool.false_eq_true, if_false]
      rw [← div_eq_mul_inv]
      exact R.near (div_nonneg (pr e he'.1) h0.le))
    rwa [map_mul_sum, ← div_eq_mul_inv] at this
  -- products with true value
  have part2 : Near R.u (3 + k2 + k3) ((prod.filter hasTrueValue).map (economicFactorR R total tvRev tvSum)).sum (A / total) := by
    by_cases hany : ∃ e ∈ prod, hasTrueValue e = true
    · have hS := hv hany
      have st := near_sum (u := R.u) (m := 3) (economicFactorR R total tvRev tvSum) (fun e => trueValueR R e * (tvSum⁻¹ * (tvRev / total))) (prod.filter hasTrueValue) (by
        intro e he
        have he' := List.mem_filter.1 he
        simp only [economicFactorR, he'.2, if_true]
        have q1 : 0 ≤ trueValueR R e / tvSum := div_nonneg (pt e he'.1) hS.le
        have q2 : 0 ≤ tvRev / total := div_nonneg prv h0.le
        have n1 := R.near (mul_nonneg (R.fl_nonneg q1) (R.fl_nonneg q2))
        have n2 := near_mul u1 (R.fl_nonneg q1) q1 (R.fl_nonneg q2) q2 (R.near q1) (R.near q2)
        have n3 := near_trans u1 n1 n2
        have e1 : trueValueR R e * (tvSum⁻¹ * (tvRev / total)) = trueValueR R e / tvSum * (tvRev / total) := by
          rw [div_eq_mul_inv (trueValueR R e)]; ring
        rw [e1]
        exact n3)
      rw [map_mul_sum] at st
      have htv : ((prod.filter hasTrueValue).map (trueValueR R)).sum = (prod.map (trueValueR R)).sum := by
        rw [map_sum_split hasTrueValue (trueValueR R) prod]
        have : ((prod.filter fun e => !hasTrueValue e).map (trueValueR R)).sum = 0 := by
          refine List.sum_eq_zero ?_
          intro x hx
          obtain ⟨e, he, rfl⟩ := List.mem_map.1 hx
          have he' : hasTrueValue e = false := by simpa using (List.mem_filter.1 he).2
          have hz : trueValue e = 0 := by
            unfold trueValue getNumericalProperty
            unfold hasTrueValue at he'
            rcases hg : getPropertyByName e "true value relation" with _ | p
            · simp
            · simp [hg] at he'
          simp [trueValueR, hz, R.zero]
        linarith
      rw [htv] at st
      have Spos : 0 < (prod.map (trueValueR R)).sum := near_pos R.u_lt (near_symm ns) hS
      have m1 := near_mul (m := k3) (k := k2) u1 (div_nonneg Spos.le hS.le) zero_le_one (div_nonneg prv h0.le) (div_nonneg A0 h0.le)
        (by
          have := near_div (k := 0) u1 Spos.le hS.le hS hS (near_symm ns) (near_refl R.u tvSum)
          rwa [div_self hS.ne', Nat.add_zero] at this)
        (by
          have := near_div (k := 0) u1 prv A0 h0 h0 nr (near_refl R.u total)
          rwa [Nat.add_zero] at this)
      have m2 := near_trans u1 st (by
        have e1 : (prod.map (trueValueR R)).sum * (tvSum⁻¹ * (tvRev / total)) = (prod.map (trueValueR R)).sum / tvSum * (tvRev / total) := by
          rw [div_eq_mul_inv (prod.map (trueValueR R)).sum]; ring
        rw [e1]
        exact m1)
      rw [one_mul] at m2
      have e : 3 + (k3 + k2) = 3 + k2 + k3 := by omega
      rwa [e] at m2
    · have hnil : prod.filter hasTrueValue = [] := by
        rw [List.filter_eq_nil_iff]
        intro e he hh
        exact hany ⟨e, he, hh⟩
      have hA' : A = 0 := by rw [hA, hnil]; rfl
      rw [hnil, hA']
      constructor <;> simp
  have f1 : 0 ≤ ((prod.filter fun e => !hasTrueValue e).map (economicFactorR R total tvRev tvSum)).sum :=
    le_trans (mul_nonneg (pow_nonneg (by linarith) 1) (div_nonneg B0 h0.le)) part1.1
  have both := near_add part2 (near_mono u0 u1 f1 (div_nonneg B0 h0.le) (by omega : 1 ≤ 3 + k2 + k3) part1)
  rw [← map_sum_split hasTrueValue (economicFactorR R total tvRev tvSum) prod, ← add_div, ← hAB] at both
  have whole : Near R.u k ((prod.map (revenueR R)).sum / total) 1 := by
    have Tpos : 0 < (prod.map (revenueR R)).sum := near_pos R.u_lt (near_symm nt) h0
    have := near_div (k := 0) u1 Tpos.le h0.le h0 h0 (near_symm nt) (near_refl R.u total)
    rwa [div_self h0.ne', Nat.add_zero] at this
  have := near_trans u1 both whole
  have e : 3 + k2 + k3 + k = 3 + k + k2 + k3 := by omega
  rwa [e] at this

/-- What a successful computation of the factors says, with the roundings counted. -/
theorem economic_inv {R : Rounding} {add : List ℚ → ℚ} (hadd : ∀ l, ∃ k ≤ l.length, SumsTo R l k (add l))
    {prod : List Exchange} {fs : List ℚ} (hpos : ∀ e ∈ prod, 0 ≤ rev e ∧ 0 ≤ tvWeight e)
    (h : economicFactorsR R add prod = .ok fs) :
    fs.length = prod.length ∧ (∀ f ∈ fs, 0 ≤ f) ∧ Near R.u (3 + 3 * prod.length) fs.sum 1 := by
  have u0 := R.nonneg
  have u1 := R.u_lt.le
  obtain ⟨k, hk, ht⟩ := hadd (prod.map (revenueR R))
  obtain ⟨k2, hk2, hr⟩ := hadd ((prod.filter hasTrueValue).map (revenueR R))
  obtain ⟨k3, hk3, hs⟩ := hadd (prod.map (trueValueR R))
  rw [List.length_map] at hk hk2 hk3
  have hk2' : k2 ≤ prod.length := le_trans hk2 (List.length_filter_le _ _)
  unfold economicFactorsR at h
  split at h
  · cases h
  simp only at h
  generalize add (prod.map (revenueR R)) = total at *
  generalize add ((prod.filter hasTrueValue).map (revenueR R)) = tvRev at *
  generalize add (prod.map (trueValueR R)) = tvSum at *
  split at h
  · cases h
  next hT =>
  split at h
  · cases h
  next hS =>
  have hfs := Except.ok.inj h
  have pr : ∀ e ∈ prod, 0 ≤ revenueR R e := fun e he => by rw [revenueR_eq]; exact R.fl_nonneg (hpos e he).1
  have pt : ∀ e ∈ prod, 0 ≤ trueValueR R e := fun e he => by rw [trueValueR_eq]; exact R.fl_nonneg (hpos e he).2
  have prv : 0 ≤ tvRev := sumsTo_nonneg hr (by intro y hy; obtain ⟨e, he, rfl⟩ := List.mem_map.1 hy; exact pr e (List.mem_filter.1 he).1)
  have psv : 0 ≤ tvSum := sumsTo_nonneg hs (by intro y hy; obtain ⟨e, he, rfl⟩ := List.mem_map.1 hy; exact pt e he)
  have ptv : 0 ≤ total := sumsTo_nonneg ht (by intro y hy; obtain ⟨e, he, rfl⟩ := List.mem_map.1 hy; exact pr e he)
  have h0 : 0 < total := lt_of_le_of_ne ptv (Ne.symm hT)
  have hv : (∃ e ∈ prod, hasTrueValue e = true) → 0 < tvSum := by
    rintro ⟨e, he, hh⟩
    refine lt_of_le_of_ne psv (Ne.symm fun hz => hS ⟨?_, hz⟩)
    exact List.any_eq_true.2 ⟨e, he, hh⟩
  have fpos : ∀ e ∈ prod, 0 ≤ economicFactorR R total tvRev tvSum e := by
    intro e he
    unfold economicFactorR
    split
    · exact R.fl_nonneg (mul_nonneg (R.fl_nonneg (div_nonneg (pt e he) psv)) (R.fl_nonneg (div_nonneg prv h0.le)))
    · exact R.fl_nonneg (div_nonneg (pr e he) h0.le)
  have all : ∀ f ∈ fs, 0 ≤ f := by
    intro f hf
    rw [← hfs] at hf
    obtain ⟨e, he, rfl⟩ := List.mem_map.1 hf
    exact fpos e he
  refine ⟨by rw [← hfs, List.length_map], all, ?_⟩
  have hn := economic_near R prod hpos ht hr hs h0 hv
  rw [hfs] at hn
  exact near_mono u0 u1 (List.sum_nonneg all) zero_le_one (by omega) hn

/-- C122: in floating point arithmetic the allocation factors of `n` products (by revenue, and by true value
where given) are non-negative and add up to one within `2 (3 + 3 n) u`, where `u ≤ 2⁻⁵³` is the unit
roundoff.  `add` may add in any order. -/
theorem C122_factors (R : Rounding) (add : List ℚ → ℚ) (hadd : ∀ l, ∃ k ≤ l.length, SumsTo R l k (add l))
    (prod : List Exchange) (fs : List ℚ) (hpos : ∀ e ∈ prod, 0 ≤ rev e ∧ 0 ≤ tvWeight e)
    (h : economicFactorsR R add prod = .ok fs) (hn : ((3 + 3 * prod.length : ℕ) : ℚ) * R.u ≤ 1 / 2) :
    fs.length = prod.length ∧ (∀ f ∈ fs, 0 ≤ f) ∧ |fs.sum - 1| ≤ 2 * (3 + 3 * prod.length : ℕ) * R.u := by
  obtain ⟨h1, h2, h3⟩ := economic_inv hadd hpos h
  exact ⟨h1, h2, near_one_abs R.nonneg R.u_lt.le hn h3⟩

/-- C122: up to a hundred products the factors add up to one within `1e-13`. -/
theorem C122_hundred (R : Rounding) (add : List ℚ → ℚ) (hadd : ∀ l, ∃ k ≤ l.length, SumsTo R l k (add l))
    (prod : List Exchange) (fs : List ℚ) (hpos : ∀ e ∈ prod, 0 ≤ rev e ∧ 0 ≤ tvWeight e)
    (h : economicFactorsR R add prod = .ok fs) (hn : prod.length ≤ 100) : |fs.sum - 1| ≤ 1 / 10 ^ 13 := by
  have hl : ((3 + 3 * prod.length : ℕ) : ℚ) ≤ 303 := by
    have : 3 + 3 * prod.length ≤ 303 := by omega
    exact_mod_cast this
  have hs := R.small
  have h0 := R.nonneg
  have hb : ((3 + 3 * prod.length : ℕ) : ℚ) * R.u ≤ 303 * (1 / 2 ^ 53) := mul_le_mul hl hs h0 (by norm_num)
  have := (C122_factors R add hadd prod fs hpos h (le_trans hb (by norm_num))).2.2
  refine le_trans this ?_
  have e : 2 * ((3 + 3 * prod.length : ℕ) : ℚ) * R.u = 2 * (((3 + 3 * prod.length : ℕ) : ℚ) * R.u) := by ring
  rw [e]
  have : (2 : ℚ) * (303 * (1 / 2 ^ 53)) ≤ 1 / 10 ^ 13 := by norm_num
  linarith

/-- C122: an activity's exchange scaled by the factors of its `n` products is shared out completely: the
amounts the products receive add up to the original amount within a relative `2 (4 + 3 n) u`. -/
theorem C122_burden (R : Rounding) (M : MathEnv) (add : List ℚ → ℚ) (hadd : ∀ l, ∃ k ≤ l.length, SumsTo R l k (add l))
    (x : Exchange) (prod out : List Exchange) (fs : List ℚ) (hpos : ∀ e ∈ prod, 0 ≤ rev e ∧ 0 ≤ tvWeight e)
    (h : economicFactorsR R add prod = .ok fs) (hn : ((4 + 3 * prod.length : ℕ) : ℚ) * R.u ≤ 1 / 2)
    (hout : mapE (scaleExchangeR R M x) fs = .ok out) :
    |(out.map (·.amount)).sum - x.amount| ≤ 2 * (4 + 3 * prod.length : ℕ) * R.u * |x.amount| := by
  have u0 := R.nonneg
  have u1 := R.u_lt.le
  obtain ⟨-, fpos, hf⟩ := economic_inv hadd hpos h
  -- the absolute value of what each product receives
  have each : ∀ f ∈ fs, ∀ e', scaleExchangeR R M x f = .ok e' →
      e'.amount = (if x.amount < 0 then -1 else 1) * |e'.amount| ∧ Near R.u 1 |e'.amount| (f * |x.amount|) := by
    intro f hfm e' h
    have hfe := fpos f hfm
    have near1 : Near R.u 1 |e'.amount| (f * |x.amount|) ∧ (x.amount < 0 → e'.amount ≤ 0) ∧ (¬ x.amount < 0 → 0 ≤ e'.amount) := by
      by_cases h1 : f = 1
      · subst h1
        rw [scaleExchangeR_one] at h
        cases h
        refine ⟨?_, fun h => h.le, fun h => not_lt.1 h⟩
        rw [one_mul]
        exact near_mono u0 u1 (abs_nonneg _) (abs_nonneg _) (Nat.zero_le 1) (near_refl R.u _)
      · have hfr := scaleExchangeR_frame h1 h
        have ham : e'.amount = R.fl (x.amount * f) := by rw [hfr]
        refine ⟨?_, ?_, ?_⟩
        · rw [ham, R.abs_fl, abs_mul, abs_of_nonneg hfe, mul_comm]
          exact R.near (mul_nonneg hfe (abs_nonneg _))
        · intro hx; rw [ham]; exact R.fl_nonpos (mul_nonpos_of_nonpos_of_nonneg hx.le hfe)
        · intro hx; rw [ham]; exact R.fl_nonneg (mul_nonneg (not_lt.1 hx) hfe)
    refine ⟨?_, near1.1⟩
    split
    · next hx => rw [abs_of_nonpos (near1.2.1 hx)]; ring
    · next hx => rw [abs_of_nonneg (near1.2.2 hx)]; ring
  have hsum : (out.map (·.amount)).sum = (if x.amount < 0 then -1 else 1) * (out.map fun e' => |e'.amount|).sum ∧
      Near R.u 1 (out.map fun e' => |e'.amount|).sum (fs.sum * |x.amount|) := by
    clear hf h fpos
    have hall := mapE_ok_iff.mp hout
    clear hout
    induction hall with
    | nil => constructor <;> simp [Near]
    | @cons a b l r hab _ ih =>
      have ih' := ih fun e he => each e (by simp [he])
      have hab' := each a (by simp) b hab
      simp only [List.map_cons, List.sum_cons]
      refine ⟨?_, ?_⟩
      · rw [ih'.1, mul_add]
        congr 1
        exact hab'.1
      · rw [add_mul]
        exact near_add hab'.2 ih'.2
  have hx0 := abs_nonneg x.amount
  have hn' : Near R.u (4 + 3 * prod.length) (out.map fun e' => |e'.amount|).sum |x.amount| := by
    have hF : 0 ≤ fs.sum := List.sum_nonneg fpos
    have m := near_mul (k := 0) u1 hF zero_le_one hx0 hx0 hf (near_refl R.u |x.amount|)
    have := near_trans u1 hsum.2 m
    rw [one_mul] at this
    have e : 1 + (3 + 3 * prod.length + 0) = 4 + 3 * prod.length := by omega
    rwa [e] at this
  have := near_abs u0 u1 hx0 hn hn'
  rw [hsum.1]
  split
  · next hx =>
    have e : -1 * (out.map fun e' => |e'.amount|).sum - x.amount = -((out.map fun e' => |e'.amount|).sum - |x.amount|) := by
      rw [abs_of_neg hx]; ring
    rw [e, abs_neg]
    exact this
  · next hx =>
    have e : 1 * (out.map fun e' => |e'.amount|).sum - x.amount = (out.map fun e' => |e'.amount|).sum - |x.amount| := by
      rw [abs_of_nonneg (not_lt.1 hx)]; ring
    rw [e]
    exact this

/-- With exact arithmetic and the exact sum these are the factors of C14. -/
theorem C122_exact (prod : List Exchange) : economicFactorsR Spec.exact List.sum prod = economicFactors prod := rfl

/-- Steel with a price and slag with a price and a true value. -/
def pricedProducts : List Exchange :=
  [{ name := "steel", type := .referenceProduct, amount := 10, properties := [{ name := "price", amount := 3 / 7 }] },
   { name := "slag", type := .byproduct, cls := some .allocatable, amount := 3, properties := [{ name := "price", amount := 1 / 10 }, { name := "true value relation", amount := 1 / 3 }] }]

/-- The hypotheses of C122 hold for two products with awkward prices, in double precision and with
Python's order of additions. -/
example : (∀ l, ∃ k ≤ l.length, SumsTo Spec.double l k (pySum Spec.double l)) ∧
    (∀ e ∈ pricedProducts, 0 ≤ rev e ∧ 0 ≤ tvWeight e) ∧
    ∃ fs, economicFactorsR Spec.double (pySum Spec.double) pricedProducts = .ok fs := by
  have hpos : ∀ e ∈ pricedProducts, 0 ≤ rev e ∧ 0 ≤ tvWeight e := by decide +kernel
  have hp : ∀ l : List ℚ, (∀ x ∈ l, 0 ≤ x) → 0 < l.sum → pySum Spec.double l ≠ 0 := fun l h0 h1 =>
    (near_pos Spec.double.u_lt (sumsTo_near (pySum_sumsTo Spec.double l) h0) h1).ne'
  refine ⟨fun l => ⟨_, le_refl _, pySum_sumsTo _ l⟩, hpos, ?_⟩
  unfold economicFactorsR
  rw [if_neg (by decide)]
  simp only
  rw [if_neg, if_neg]
  · exact ⟨_, rfl⟩
  · rintro ⟨-, h⟩
    refine hp _ ?_ ?_ h
    · intro x hx
      obtain ⟨e, he, rfl⟩ := List.mem_map.1 hx
      rw [trueValueR_eq]
      exact Spec.double.fl_nonneg (hpos e he).2
    · have h1 : trueValueR Spec.double pricedProducts[0] = 0 := by
        rw [trueValueR_eq, show tvWeight pricedProducts[0] = 0 by decide +kernel, Spec.double.zero]
      have h2 : 0 < trueValueR Spec.double pricedProducts[1] := by
        rw [trueValueR_eq]
        exact Spec.double.fl_pos (by decide +kernel)
      change 0 < trueValueR Spec.double pricedProducts[0] + (trueValueR Spec.double pricedProducts[1] + 0)
      linarith
  · refine hp _ ?_ ?_
    · intro x hx
      obtain ⟨e, he, rfl⟩ := List.mem_map.1 hx
      rw [revenueR_eq]
      exact Spec.double.fl_nonneg (hpos e he).1
    · have h1 : 0 < revenueR Spec.double pricedProducts[0] := by
        rw [revenueR_eq]
        exact Spec.double.fl_pos (by decide +kernel)
      have h2 : 0 < revenueR Spec.double pricedProducts[1] := by
        rw [revenueR_eq]
        exact Spec.double.fl_pos (by decide +kernel)
      change 0 < revenueR Spec.double pricedProducts[0] + (revenueR Spec.double pricedProducts[1] + 0)
      linarith

/-! ## C123 -/

/-- C123: in floating point arithmetic the inputs given to a market's suppliers add up to the market's
output within a relative `2 (n + 2) u` for `n` suppliers, whatever the volumes are and in whatever order
they come; suppliers without volume get nothing, and nothing else in the dataset changes. -/
theorem C123_shares (R : Rounding) (ds out : Dataset) (sup : List Exchange) (e : Exchange)
    (h : allocateSuppliersR R ds = .ok out) (he : refs ds = [e]) (hs : ds.suppliers = some sup)
    (hvol : ∀ s ∈ sup, ∃ p, s.pv = some p ∧ 0 ≤ p.amount) (hsome : ∃ s ∈ sup, ∃ p, s.pv = some p ∧ p.amount ≠ 0)
    (hn : ((sup.length + 2 : ℕ) : ℚ) * R.u ≤ 1 / 2) :
    ∃ new, out = { ds with exchanges := ds.exchanges ++ new } ∧
      |(new.map (·.amount)).sum - e.amount| ≤ 2 * (sup.length + 2 : ℕ) * R.u * |e.amount| := by
  have u0 := R.nonneg
  have u1 := R.u_lt.le
  -- the volumes
  obtain ⟨vol, hvolume⟩ : ∃ vol : Exchange → ℚ, ∀ s ∈ sup, ∃ p, s.pv = some p ∧ p.amount = vol s ∧ 0 ≤ vol s := by
    refine ⟨fun s => (s.pv.map (·.amount)).getD 0, fun s hs => ?_⟩
    obtain ⟨p, hp, h0⟩ := hvol s hs
    exact ⟨p, hp, by simp [hp], by simp [hp, h0]⟩
  have hmap : mapE entryVolume sup = .ok (sup.map vol) := by
    rw [mapE_congr (g := fun s => .ok (vol s))]
    · exact mapE_pure vol sup
    · intro s hs
      obtain ⟨p, hp, hv, -⟩ := hvolume s hs
      simp [entryVolume, hp, hv]
  have vpos : ∀ x ∈ sup.map vol, 0 ≤ x := by
    intro x hx
    obtain ⟨s, hs, rfl⟩ := List.mem_map.1 hx
    obtain ⟨p, -, -, h0⟩ := hvolume s hs
    exact h0
  have hT := sumsTo_near (pySum_sumsTo R (sup.map vol)) vpos
  rw [List.length_map] at hT
  have Spos : 0 < (sup.map vol).sum := by
    obtain ⟨s, hs, p, hp, hne⟩ := hsome
    obtain ⟨q, hq, hv, h0⟩ := hvolume s hs
    have e1 : p = q := Option.some.inj (hp.symm.trans hq)
    subst e1
    have : vol s ≤ (sup.map vol).sum := List.single_le_sum vpos _ (List.mem_map.2 ⟨s, hs, rfl⟩)
    have : 0 < vol s := lt_of_le_of_ne h0 (by rw [← hv]; exact hne.symm)
    linarith
  have Tpos : 0 < pySum R (sup.map vol) := near_pos R.u_lt hT Spos
  unfold allocateSuppliersR at h
  rw [getSingle_ok.mpr he, hs] at h
  simp only [ebind_ok, getKey_some, hmap, Tpos.ne', if_false, epure] at h
  obtain ⟨new, hnew, h2⟩ := bind_eq_ok.mp h
  refine ⟨new, by rw [← Except.ok.inj h2, hs], ?_⟩
  generalize pySum R (sup.map vol) = T at hnew Tpos hT
  -- the amounts
  have key : ∀ (l : List Exchange) (new : List Exchange), (∀ s ∈ l, ∃ p, s.pv = some p ∧ p.amount = vol s ∧ 0 ≤ vol s) →
      flatMapE (marketInputR R e.amount T) l = .ok new →
      (new.map (·.amount)).sum = (if e.amount < 0 then -1 else 1) * (new.map fun x => |x.amount|).sum ∧
      Near R.u 2 (new.map fun x => |x.amount|).sum ((l.map vol).sum / T * |e.amount|) := by
    intro l
    induction l with
    | nil =>
      intro new _ hn
      cases hn
      constructor <;> simp [Near]
    | cons s l ih =>
      intro new hl hn
      unfold flatMapE at hn
      obtain ⟨a, ha, hn⟩ := bind_eq_ok.mp hn
      obtain ⟨b, hb, hn⟩ := bind_eq_ok.mp hn
      cases hn
      have ihb := ih b (fun t ht => hl t (by simp [ht])) hb
      obtain ⟨p, hp, hv, h0⟩ := hl s (by simp)
      have hab : (a.map (·.amount)).sum = (if e.amount < 0 then -1 else 1) * (a.map fun x => |x.amount|).sum ∧
          Near R.u 2 (a.map fun x => |x.amount|).sum (vol s / T * |e.amount|) := by
        unfold marketInputR at ha
        rw [hp] at ha
        simp only [getKey_some, ebind_ok, epure, hv] at ha
        by_cases hz : R.fl (vol s / T) = 0
        · rw [if_pos hz] at ha
          cases ha
          have : vol s / T = 0 := R.fl_eq_zero.1 hz
          rw [this]
          constructor <;> simp [Near]
        · rw [if_neg hz] at ha
          obtain ⟨c, -, ha⟩ := bind_eq_ok.mp ha
          obtain ⟨c', -, ha⟩ := bind_eq_ok.mp ha
          cases ha
          have q0 : 0 ≤ vol s / T := div_nonneg h0 Tpos.le
          have qf := R.fl_nonneg q0
          simp only [List.map_cons, List.map_nil, List.sum_cons, List.sum_nil, add_zero]
          refine ⟨?_, ?_⟩
          · split
            · next hx => rw [abs_of_nonpos (R.fl_nonpos (mul_nonpos_of_nonneg_of_nonpos qf hx.le))]; ring
            · next hx => rw [abs_of_nonneg (R.fl_nonneg (mul_nonneg qf (not_lt.1 hx)))]; ring
          · rw [R.abs_fl, abs_mul, abs_of_nonneg qf]
            have n1 := R.near (mul_nonneg qf (abs_nonneg e.amount))
            have n2 := near_mul (k := 0) u1 qf q0 (abs_nonneg e.amount) (abs_nonneg e.amount) (R.near q0) (near_refl R.u _)
            exact near_trans u1 n1 n2
      simp only [List.map_append, List.sum_append, List.map_cons, List.sum_cons]
      refine ⟨?_, ?_⟩
      · rw [hab.1, ihb.1]; ring
      · rw [add_div, add_mul]
        exact near_add hab.2 ihb.2
  have hk := key sup new hvolume hnew
  have hx0 := abs_nonneg e.amount
  have hn' : Near R.u (sup.length + 2) (new.map fun x => |x.amount|).sum |e.amount| := by
    have d : Near R.u sup.length ((sup.map vol).sum / T) 1 := by
      have := near_div (k := 0) u1 Spos.le Tpos.le Tpos Tpos (near_symm hT) (near_refl R.u T)
      rwa [div_self Tpos.ne', Nat.add_zero] at this
    have m := near_mul (k := 0) u1 (div_nonneg Spos.le Tpos.le) zero_le_one hx0 hx0 d (near_refl R.u |e.amount|)
    have := near_trans u1 hk.2 m
    rw [one_mul] at this
    have e1 : 2 + (sup.length + 0) = sup.length + 2 := by omega
    rwa [e1] at this
  have := near_abs u0 u1 hx0 hn hn'
  rw [hk.1]
  split
  · next hx =>
    have e1 : -1 * (new.map fun x => |x.amount|).sum - e.amount = -((new.map fun x => |x.amount|).sum - |e.amount|) := by
      rw [abs_of_neg hx]; ring
    rw [e1, abs_neg]
    exact this
  · next hx =>
    have e1 : 1 * (new.map fun x => |x.amount|).sum - e.amount = (new.map fun x => |x.amount|).sum - |e.amount| := by
      rw [abs_of_nonneg (not_lt.1 hx)]; ring
    rw [e1]
    exact this

/-- C123: a market's volume, the sum of its suppliers' volumes less the hard-linked volume and never
negative, is computed within `(2 n + 2) u` of the numbers that enter. -/
theorem C123_volume (R : Rounding) (vols : List ℚ) (s : ℚ) (hv : ∀ x ∈ vols, 0 ≤ x) (hs : 0 ≤ s)
    (hn : (vols.length : ℚ) * R.u ≤ 1 / 2) :
    |marketVolumeR R vols s - max (vols.sum - s) 0| ≤ (2 * vols.length + 2) * R.u * (vols.sum + s) := by
  have u0 := R.nonneg
  have u1 := R.u_lt.le
  have S0 := List.sum_nonneg hv
  have hT := sumsTo_near (pySum_sumsTo R vols) hv
  have P0 := sumsTo_nonneg (pySum_sumsTo R vols) hv
  have ha := near_abs u0 u1 S0 hn hT
  unfold marketVolumeR
  generalize pySum R vols = P at *
  have hP : P ≤ 2 * vols.sum := by
    have h1 := (abs_le.1 ha).2
    have : 2 * (vols.length : ℚ) * R.u * vols.sum ≤ 1 * vols.sum := mul_le_mul_of_nonneg_right (by linarith) S0
    linarith
  have hc := R.close (P - s)
  have hPs : |P - s| ≤ P + s := by
    rw [abs_le]; constructor <;> linarith
  have h1 : |R.fl (P - s) - (vols.sum - s)| ≤ R.u * |P - s| + |P - vols.sum| := by
    have t := abs_add_le (R.fl (P - s) - (P - s)) (P - vols.sum)
    have e : R.fl (P - s) - (P - s) + (P - vols.sum) = R.fl (P - s) - (vols.sum - s) := by ring
    rw [e] at t
    linarith
  have h2 : R.u * |P - s| ≤ R.u * (2 * vols.sum + s) := mul_le_mul_of_nonneg_left (by linarith) u0
  have h3 := abs_max_sub_max_le_abs (R.fl (P - s)) (vols.sum - s) 0
  have hl : (0 : ℚ) ≤ vols.length := by positivity
  have h4 : 0 ≤ (vols.length : ℚ) * R.u * s := by positivity
  have h5 : 0 ≤ R.u * s := by positivity
  nlinarith

theorem pySum_exact (l : List ℚ) : pySum Spec.exact l = l.sum := by
  have h : ∀ s : ℚ, l.foldl (fun s x => Spec.exact.fl (s + x)) s = s + l.sum := by
    induction l with
    | nil => intro s; simp
    | cons x l ih =>
      intro s
      rw [List.foldl_cons, ih, List.sum_cons]
      change s + x + l.sum = s + (x + l.sum)
      ring
  unfold pySum
  rw [h, zero_add]

/-- With exact arithmetic this is the exact model of the market shares. -/
theorem C123_exact (ds : Dataset) : allocateSuppliersR Spec.exact ds = allocateSuppliers ds := by
  have h : marketInputR Spec.exact = marketInput := rfl
  unfold allocateSuppliersR allocateSuppliers
  rw [h]
  simp only [pySum_exact]

/-- Three suppliers, one of them without volume. -/
def sharedSuppliers : List Exchange :=
  [{ name := "steel", type := .referenceProduct, amount := 1, code := some "a", location := some "CH", pv := some { amount := 1 } },
   { name := "steel", type := .referenceProduct, amount := 1, code := some "b", location := some "FR", pv := some { amount := 1 / 3 } },
   { name := "steel", type := .referenceProduct, amount := 1, code := some "c", location := some "DE", pv := some { amount := 0 } }]

/-- A market with these suppliers. -/
def sharedMarket : Dataset :=
  { name := "market for steel", type := .market, location := "GLO",
    exchanges := [{ name := "steel", type := .referenceProduct, amount := 1 }],
    suppliers := some sharedSuppliers }

/-- The hypotheses of C123 hold for it in double precision: the shares are computed and add up to one
within `2 · 5 · 2⁻⁵³`. -/
example : ∃ out new, allocateSuppliersR Spec.double sharedMarket = .ok out ∧ out = { sharedMarket with exchanges := sharedMarket.exchanges ++ new } ∧
    |(new.map (·.amount)).sum - 1| ≤ 10 / 2 ^ 53 := by
  have hv : mapE entryVolume sharedSuppliers = .ok [1, 1 / 3, 0] := rfl
  have hT : pySum Spec.double [1, 1 / 3, 0] ≠ 0 :=
    (near_pos Spec.double.u_lt (sumsTo_near (pySum_sumsTo Spec.double _) (by decide +kernel)) (by decide +kernel)).ne'
  have hok : ∃ out, allocateSuppliersR Spec.double sharedMarket = .ok out := by
    unfold allocateSuppliersR
    rw [show getSingleReferenceProduct sharedMarket = .ok { name := "steel", type := .referenceProduct, amount := 1 } from rfl,
      show sharedMarket.suppliers = some sharedSuppliers from rfl]
    simp only [ebind_ok, getKey_some, hv, hT, if_false, epure]
    generalize pySum Spec.double [1, 1 / 3, 0] = T
    simp only [sharedSuppliers, flatMapE, marketInputR, getKey_some, ebind_ok, epure]
    split <;> split <;> split <;> exact ⟨_, rfl⟩
  obtain ⟨out, hout⟩ := hok
  obtain ⟨new, h1, h2⟩ := C123_shares Spec.double sharedMarket out _ _ hout rfl rfl (by decide +kernel) (by decide +kernel) (by
    have hu : Spec.double.u = 1 / 2 ^ 53 := rfl
    rw [hu]; norm_num [show sharedSuppliers.length = 3 from rfl])
  refine ⟨out, new, hout, h1, le_trans h2 ?_⟩
  have hu : Spec.double.u = 1 / 2 ^ 53 := rfl
  rw [hu]
  norm_num [show sharedSuppliers.length = 3 from rfl]

end Ocelot
