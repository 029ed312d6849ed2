import Verif.Props.Rounded

/-!
# Property C122, entry by entry: every single allocation factor is accurate, not only their sum
-/

namespace Ocelot
open Spec

theorem revenueR_near (R : Rounding) {e : Exchange} (h : 0 ≤ rev e) : Near R.u 1 (revenueR R e) (revenueR Spec.exact e) := by
  rw [revenueR_eq, revenueR_eq]
  exact R.near h

theorem trueValueR_near (R : Rounding) {e : Exchange} (h : 0 ≤ tvWeight e) : Near R.u 1 (trueValueR R e) (trueValueR Spec.exact e) := by
  rw [trueValueR_eq, trueValueR_eq]
  exact R.near h

theorem revenueR_nonneg (R : Rounding) {e : Exchange} (h : 0 ≤ rev e) : 0 ≤ revenueR R e := by
  rw [revenueR_eq]; exact R.fl_nonneg h

theorem trueValueR_nonneg (R : Rounding) {e : Exchange} (h : 0 ≤ tvWeight e) : 0 ≤ trueValueR R e := by
  rw [trueValueR_eq]; exact R.fl_nonneg h

/-- A computed sum of rounded numbers is near the exact sum of the exact ones. -/
theorem column_near (R : Rounding) {k : ℕ} {t : ℚ} (f g : Exchange → ℚ) (l : List Exchange) (h : SumsTo R (l.map f) k t)
    (h0 : ∀ e ∈ l, 0 ≤ f e) (hfg : ∀ e ∈ l, Near R.u 1 (f e) (g e)) : 0 ≤ t ∧ Near R.u (k + 1) t (l.map g).sum := by
  have hp : ∀ x ∈ l.map f, 0 ≤ x := by
    intro x hx
    obtain ⟨e, he, rfl⟩ := List.mem_map.1 hx
    exact h0 e he
  exact ⟨sumsTo_nonneg h hp, near_trans R.u_lt.le (sumsTo_near h hp) (near_sum f g l hfg)⟩

/-- C122: whenever the factors of `n` products can be computed in floating point arithmetic, the exact ones exist, and
each factor is the exact one of C14 within a relative `2 (3 n + 7) u`. `add` may add in any order. -/
theorem C122_each (R : Rounding) (add : List ℚ → ℚ) (hadd : ∀ l, ∃ k ≤ l.length, SumsTo R l k (add l))
    (prod : List Exchange) (fs : List ℚ) (hpos : ∀ e ∈ prod, 0 ≤ rev e ∧ 0 ≤ tvWeight e)
    (h : economicFactorsR R add prod = .ok fs) (hn : ((3 * prod.length + 7 : ℕ) : ℚ) * R.u ≤ 1 / 2) :
    ∃ gs, economicFactors prod = .ok gs ∧
      List.Forall₂ (fun f g => |f - g| ≤ 2 * (3 * prod.length + 7 : ℕ) * R.u * g) fs gs := by
  have u0 := R.nonneg
  have u1 := R.u_lt.le
  rw [← C122_exact]
  obtain ⟨k, hk, ht⟩ := hadd (prod.map (revenueR R))
  obtain ⟨k2, hk2, hr⟩ := hadd ((prod.filter hasTrueValue).map (revenueR R))
  obtain ⟨k3, hk3, hs⟩ := hadd (prod.map (trueValueR R))
  rw [List.length_map] at hk hk2 hk3
  have hk2' : k2 ≤ prod.length := le_trans hk2 (List.length_filter_le _ _)
  have hsub : ∀ e ∈ prod.filter hasTrueValue, e ∈ prod := fun e he => (List.mem_filter.1 he).1
  obtain ⟨t0, nt⟩ := column_near R _ (revenueR Spec.exact) prod ht (fun e he => revenueR_nonneg R (hpos e he).1)
    (fun e he => revenueR_near R (hpos e he).1)
  obtain ⟨r0, nr⟩ := column_near R _ (revenueR Spec.exact) _ hr (fun e he => revenueR_nonneg R (hpos e (hsub e he)).1)
    (fun e he => revenueR_near R (hpos e (hsub e he)).1)
  obtain ⟨s0, ns⟩ := column_near R _ (trueValueR Spec.exact) prod hs (fun e he => trueValueR_nonneg R (hpos e he).2)
    (fun e he => trueValueR_near R (hpos e he).2)
  have R0 : 0 ≤ ((prod.filter hasTrueValue).map (revenueR Spec.exact)).sum := by
    refine List.sum_nonneg fun x hx => ?_
    obtain ⟨e, he, rfl⟩ := List.mem_map.1 hx
    exact revenueR_nonneg _ (hpos e (hsub e he)).1
  unfold economicFactorsR at h ⊢
  split at h
  · cases h
  next hne =>
  rw [if_neg hne]
  simp only at h ⊢
  generalize add (prod.map (revenueR R)) = total at *
  generalize add ((prod.filter hasTrueValue).map (revenueR R)) = tvRev at *
  generalize add (prod.map (trueValueR R)) = tvSum at *
  generalize ((prod.filter hasTrueValue).map (revenueR Spec.exact)).sum = X2 at *
  generalize (prod.map (revenueR Spec.exact)).sum = X1 at *
  generalize (prod.map (trueValueR Spec.exact)).sum = X3 at *
  split at h
  · cases h
  next hT =>
  split at h
  · cases h
  next hS =>
  have T0 : 0 < total := lt_of_le_of_ne t0 (Ne.symm hT)
  have X1pos : 0 < X1 := near_pos R.u_lt (near_symm nt) T0
  have hv : (∃ e ∈ prod, hasTrueValue e = true) → 0 < tvSum ∧ 0 < X3 := by
    rintro ⟨e, he, hh⟩
    have : 0 < tvSum := lt_of_le_of_ne s0 (Ne.symm fun hz => hS ⟨List.any_eq_true.2 ⟨e, he, hh⟩, hz⟩)
    exact ⟨this, near_pos R.u_lt (near_symm ns) this⟩
  have hX3 : ¬ (prod.any hasTrueValue ∧ X3 = 0) := fun ⟨ha, hz⟩ => (hv (List.any_eq_true.1 ha)).2.ne' hz
  rw [if_neg X1pos.ne', if_neg hX3]
  refine ⟨_, rfl, ?_⟩
  rw [← Except.ok.inj h, List.forall₂_map_left_iff, List.forall₂_map_right_iff, List.forall₂_same]
  intro e he
  have a0 := revenueR_nonneg R (hpos e he).1
  have b0 := revenueR_nonneg Spec.exact (hpos e he).1
  have c0 := trueValueR_nonneg R (hpos e he).2
  have d0 := trueValueR_nonneg Spec.exact (hpos e he).2
  have key : 0 ≤ economicFactorR R total tvRev tvSum e ∧ 0 ≤ economicFactorR Spec.exact X1 X2 X3 e ∧
      Near R.u (3 * prod.length + 7) (economicFactorR R total tvRev tvSum e) (economicFactorR Spec.exact X1 X2 X3 e) := by
    unfold economicFactorR
    split
    · next hh =>
      obtain ⟨S0, X3pos⟩ := hv ⟨e, he, hh⟩
      have p1 : 0 ≤ trueValueR R e / tvSum := div_nonneg c0 S0.le
      have p2 : 0 ≤ tvRev / total := div_nonneg r0 T0.le
      have p3 : 0 ≤ trueValueR Spec.exact e / X3 := div_nonneg d0 X3pos.le
      have p4 : 0 ≤ X2 / X1 := div_nonneg R0 X1pos.le
      have m1 := near_trans u1 (R.near p1) (near_div u1 c0 d0 S0 X3pos (trueValueR_near R (hpos e he).2) ns)
      have m2 := near_trans u1 (R.near p2) (near_div u1 r0 R0 T0 X1pos nr nt)
      have m3 := near_mul u1 (R.fl_nonneg p1) p3 (R.fl_nonneg p2) p4 m1 m2
      have p5 := mul_nonneg (R.fl_nonneg p1) (R.fl_nonneg p2)
      refine ⟨R.fl_nonneg p5, mul_nonneg p3 p4, ?_⟩
      exact near_mono u0 u1 (R.fl_nonneg p5) (mul_nonneg p3 p4) (by omega) (near_trans u1 (R.near p5) m3)
    · have p1 : 0 ≤ revenueR R e / total := div_nonneg a0 T0.le
      have p3 : 0 ≤ revenueR Spec.exact e / X1 := div_nonneg b0 X1pos.le
      have m1 := near_trans u1 (R.near p1) (near_div u1 a0 b0 T0 X1pos (revenueR_near R (hpos e he).1) nt)
      exact ⟨R.fl_nonneg p1, p3, near_mono u0 u1 (R.fl_nonneg p1) p3 (by omega) m1⟩
  exact near_abs u0 u1 key.2.1 hn key.2.2

/-- C122: rounding never makes the computation of the factors fail: it succeeds if the exact one does. -/
theorem C122_succeeds (R : Rounding) (add : List ℚ → ℚ) (hadd : ∀ l, ∃ k ≤ l.length, SumsTo R l k (add l))
    (prod : List Exchange) (gs : List ℚ) (hpos : ∀ e ∈ prod, 0 ≤ rev e ∧ 0 ≤ tvWeight e)
    (h : economicFactors prod = .ok gs) : ∃ fs, economicFactorsR R add prod = .ok fs := by
  rw [← C122_exact] at h
  obtain ⟨k, -, ht⟩ := hadd (prod.map (revenueR R))
  obtain ⟨k3, -, hs⟩ := hadd (prod.map (trueValueR R))
  obtain ⟨-, nt⟩ := column_near R _ (revenueR Spec.exact) prod ht (fun e he => revenueR_nonneg R (hpos e he).1)
    (fun e he => revenueR_near R (hpos e he).1)
  obtain ⟨-, ns⟩ := column_near R _ (trueValueR Spec.exact) prod hs (fun e he => trueValueR_nonneg R (hpos e he).2)
    (fun e he => trueValueR_near R (hpos e he).2)
  have x1 : 0 ≤ (prod.map (revenueR Spec.exact)).sum := by
    refine List.sum_nonneg fun x hx => ?_
    obtain ⟨e, he, rfl⟩ := List.mem_map.1 hx
    exact revenueR_nonneg _ (hpos e he).1
  have x3 : 0 ≤ (prod.map (trueValueR Spec.exact)).sum := by
    refine List.sum_nonneg fun x hx => ?_
    obtain ⟨e, he, rfl⟩ := List.mem_map.1 hx
    exact trueValueR_nonneg _ (hpos e he).2
  unfold economicFactorsR at h ⊢
  split at h
  · cases h
  next hne =>
  rw [if_neg hne]
  simp only at h ⊢
  split at h
  · cases h
  next hT =>
  split at h
  · cases h
  next hS =>
  rw [if_neg (near_pos R.u_lt nt (lt_of_le_of_ne x1 (Ne.symm hT))).ne', if_neg]
  · exact ⟨_, rfl⟩
  · rintro ⟨ha, hz⟩
    exact (near_pos R.u_lt ns (lt_of_le_of_ne x3 (Ne.symm fun h3 => hS ⟨ha, h3⟩))).ne' hz

/-- Both apply to steel and slag of `Props/Rounded` in double precision with Python's sum, and give factors within
`26 · 2⁻⁵³` of the exact ones. -/
example : ∃ f₁ f₂ g₁ g₂, economicFactorsR Spec.double (pySum Spec.double) pricedProducts = .ok [f₁, f₂] ∧
    economicFactors pricedProducts = .ok [g₁, g₂] ∧ |f₁ - g₁| ≤ 26 / 2 ^ 53 * g₁ ∧ |f₂ - g₂| ≤ 26 / 2 ^ 53 * g₂ := by
  have hu : Spec.double.u = 1 / 2 ^ 53 := rfl
  have hadd : ∀ l : List ℚ, ∃ k ≤ l.length, SumsTo Spec.double l k (pySum Spec.double l) := fun l => ⟨_, le_refl _, pySum_sumsTo _ l⟩
  have hpos : ∀ e ∈ pricedProducts, 0 ≤ rev e ∧ 0 ≤ tvWeight e := by decide +kernel
  have hex : economicFactors pricedProducts = .ok [100 / 107, 7 / 107] := by decide +kernel
  obtain ⟨fs, hfs⟩ := C122_succeeds Spec.double _ hadd _ _ hpos hex
  obtain ⟨gs, hgs, hf⟩ := C122_each Spec.double _ hadd _ fs hpos hfs (by
    rw [hu]; norm_num [show pricedProducts.length = 2 from rfl])
  rw [hex] at hgs
  cases hgs
  obtain _ | ⟨h1, _ | ⟨h2, _ | _⟩⟩ := hf
  rw [show pricedProducts.length = 2 from rfl, hu] at h1 h2
  refine ⟨_, _, _, _, hfs, hex, le_trans h1 ?_, le_trans h2 ?_⟩ <;> norm_num

end Ocelot
