import Verif.Proofs.Uncertainty
import Verif.Spec.Uncertainty

/-! # Properties C01–C07: scaling and repairing uncertain amounts -/

namespace Ocelot
open Spec

/-! ## C01 -/

/-- C01: a successful `scale_exchange` multiplies the amount exactly by the factor. -/
theorem C01_scale_amount (M : MathEnv) (e e' : Exchange) (f : ℚ)
    (h : scaleExchange M e f = .ok e') : e'.amount = e.amount * f := by
  obtain ⟨o, ho, h2⟩ := bind_eq_ok.mp h
  cases h2
  have := congrArg NumObj.amount (scale_frame ho)
  simpa using this

/-- C01: nothing but the keys `amount` and `uncertainty` is touched. -/
theorem C01_scale_frame (M : MathEnv) (e e' : Exchange) (f : ℚ)
    (h : scaleExchange M e f = .ok e') :
    e' = { e with amount := e'.amount, uncertainty := e'.uncertainty } := by
  obtain ⟨o, ho, h2⟩ := bind_eq_ok.mp h
  cases h2
  have h1 := scale_frame ho
  rw [h1]

/-- C01: the factor one returns the exchange untouched. -/
theorem C01_scale_one (M : MathEnv) (e : Exchange) : scaleExchange M e 1 = .ok e := by
  simp [scaleExchange, NumObj.scale]

/-- C01: an unsupported distribution is an error for every factor but one. -/
theorem C01_scale_unsupported (M : MathEnv) (e : Exchange) (f : ℚ) (u : Unc) (s : String)
    (hf : f ≠ 1) (hu : e.uncertainty = some u) (hk : u.kind = some (.other s)) :
    scaleExchange M e f = .error .unsupportedDistribution := by
  simp [scaleExchange, NumObj.scale, hf, hu, hk]

/-- An exchange without uncertainty can always be scaled. -/
theorem C01_scale_certain (M : MathEnv) (e : Exchange) (f : ℚ) (hu : e.uncertainty = none) :
    scaleExchange M e f = .ok { e with amount := e.amount * f } := by
  unfold scaleExchange NumObj.scale
  split
  · next h => subst h; simp
  · simp [hu]

/-- Sample oracle used only in examples. -/
def sampleM : MathEnv := ⟨fun x => x - 1, 3⟩

example : scaleExchange sampleM
    { name := "steel", type := .fromTechnosphere, amount := 3, uncertainty := some { kind := some .uniform, minimum := some 2, maximum := some 4 } } (-2)
    = .ok { name := "steel", type := .fromTechnosphere, amount := -6, uncertainty := some { kind := some .uniform, minimum := some (-8), maximum := some (-4) } } := by
  decide +kernel

example : scaleExchange sampleM
    { name := "steel", type := .fromTechnosphere, amount := 3, uncertainty := some { kind := some (.other "beta") } } 2 = .error .unsupportedDistribution := by
  decide +kernel

/-! ## C02 -/

/-- C02: scaling an exchange with a well-formed uniform or triangular distribution never fails; the
new amount is the old one times the factor; the uncertainty disappears exactly if the scaled interval
is a single point; otherwise the new distribution is again well-formed and its interval is exactly
the image of the old interval. -/
theorem C02_scale_bounded (M : MathEnv) (o : NumObj) (u : Unc) (lo hi f : ℚ)
    (h : Bounded o u lo hi) (hf : f ≠ 1) :
    ∃ o', o.scale M f = .ok o' ∧ o'.amount = o.amount * f ∧
      ((f = 0 ∨ lo = hi) → o'.uncertainty = none) ∧
      (¬ (f = 0 ∨ lo = hi) → ∃ u' lo' hi', Bounded o' u' lo' hi' ∧
        (u.kind = some .triangular → u'.kind = some .triangular) ∧
        ∀ x, (lo' ≤ x ∧ x ≤ hi') ↔ ∃ y, lo ≤ y ∧ y ≤ hi ∧ x = y * f) := by
  obtain ⟨hu, hk, hmn, hmx, h1, h2⟩ := h
  have hcol : (f = 0 ∨ lo = hi) → lo * f = hi * f ∧ hi * f = o.amount * f := by
    rintro (rfl | rfl)
    · simp
    · have : o.amount = lo := le_antisymm h2 h1
      simp [this]
  have hncol : ¬ (f = 0 ∨ lo = hi) → ¬ (lo * f = hi * f ∧ hi * f = o.amount * f) := by
    intro hn ⟨he, _⟩
    push Not at hn
    exact hn.2 (mul_right_cancel₀ hn.1 he)
  have hbd : ¬ (o.amount * f < min (lo * f) (hi * f) ∨ o.amount * f > max (lo * f) (hi * f)) := by
    push Not
    rcases le_total 0 f with hp | hn
    · exact ⟨min_le_of_left_le (mul_le_mul_of_nonneg_right h1 hp),
        le_max_of_le_right (mul_le_mul_of_nonneg_right h2 hp)⟩
    · exact ⟨min_le_of_right_le (mul_le_mul_of_nonpos_right h2 hn),
        le_max_of_le_left (mul_le_mul_of_nonpos_right h1 hn)⟩
  have himg : f ≠ 0 → ∀ x, (min (lo * f) (hi * f) ≤ x ∧ x ≤ max (lo * f) (hi * f)) ↔
      ∃ y, lo ≤ y ∧ y ≤ hi ∧ x = y * f := by
    intro hf0 x
    constructor
    · rintro ⟨ha, hb⟩
      refine ⟨x / f, ?_, ?_, by field_simp⟩
      · rcases lt_or_gt_of_ne hf0 with hn | hp
        · rw [le_div_iff_of_neg hn]
          have : max (lo * f) (hi * f) = lo * f :=
            max_eq_left (mul_le_mul_of_nonpos_right (h1.trans h2) hn.le)
          rwa [this] at hb
        · rw [le_div_iff₀ hp]
          have : min (lo * f) (hi * f) = lo * f :=
            min_eq_left (mul_le_mul_of_nonneg_right (h1.trans h2) hp.le)
          rwa [this] at ha
      · rcases lt_or_gt_of_ne hf0 with hn | hp
        · rw [div_le_iff_of_neg hn]
          have : min (lo * f) (hi * f) = hi * f :=
            min_eq_right (mul_le_mul_of_nonpos_right (h1.trans h2) hn.le)
          rwa [this] at ha
        · rw [div_le_iff₀ hp]
          have : max (lo * f) (hi * f) = hi * f :=
            max_eq_right (mul_le_mul_of_nonneg_right (h1.trans h2) hp.le)
          rwa [this] at hb
    · rintro ⟨y, hy1, hy2, rfl⟩
      rcases le_total 0 f with hp | hn
      · exact ⟨min_le_of_left_le (mul_le_mul_of_nonneg_right hy1 hp),
          le_max_of_le_right (mul_le_mul_of_nonneg_right hy2 hp)⟩
      · exact ⟨min_le_of_right_le (mul_le_mul_of_nonpos_right hy2 hn),
          le_max_of_le_left (mul_le_mul_of_nonpos_right hy1 hn)⟩
  have hbd' := hbd
  push Not at hbd'
  rcases hk with hk | ⟨hk, hmode⟩
  · -- uniform
    by_cases hc : f = 0 ∨ lo = hi
    · refine ⟨{ o with amount := o.amount * f, uncertainty := none }, ?_, rfl, fun _ => rfl,
        fun hn => absurd hc hn⟩
      simp only [NumObj.scale, hf, if_false, hu, hk, uniformRescale, hmn, hmx, getKey_some, ebind_ok]
      rw [uniformRepair_eq rfl rfl, if_pos (hcol hc)]
      rfl
    · have hf0 : f ≠ 0 := fun h0 => hc (Or.inl h0)
      by_cases hall : allclose (o.amount * f) ((lo * f + hi * f) / 2) = false
      · refine ⟨{ o with amount := o.amount * f, uncertainty := some { u with kind := some .triangular, mode := some (o.amount * f), minimum := some (min (lo * f) (hi * f)), maximum := some (max (lo * f) (hi * f)) } }, ?_, rfl, fun h => absurd h hc, fun _ => ⟨_, _, _, ⟨rfl, Or.inr ⟨rfl, rfl⟩, rfl, rfl, hbd'.1, hbd'.2⟩, fun _ => rfl, himg hf0⟩⟩
        simp only [NumObj.scale, hf, if_false, hu, hk, uniformRescale, hmn, hmx, getKey_some, ebind_ok]
        rw [uniformRepair_eq rfl rfl, if_neg (hncol hc), if_neg hbd, if_pos hall,
          triangularRepair_eq rfl rfl]
        have hmm : min (min (lo * f) (hi * f)) (max (lo * f) (hi * f)) = min (lo * f) (hi * f) :=
          min_eq_left min_le_max
        have hMM : max (min (lo * f) (hi * f)) (max (lo * f) (hi * f)) = max (lo * f) (hi * f) :=
          max_eq_right min_le_max
        have hne : ¬ (min (lo * f) (hi * f) = max (lo * f) (hi * f) ∧
            max (lo * f) (hi * f) = o.amount * f) := by
          rintro ⟨hx, _⟩
          have hx : lo * f = hi * f := by
            rcases le_total (lo * f) (hi * f) with hle | hle
            · simpa [min_eq_left hle, max_eq_right hle] using hx
            · simpa [min_eq_right hle, max_eq_left hle] using hx.symm
          exact hc (Or.inr (mul_right_cancel₀ hf0 hx))
        simp only [hmm, hMM, if_neg hne, if_neg hbd]
      · refine ⟨{ o with amount := o.amount * f, uncertainty := some { u with kind := some .uniform, minimum := some (min (lo * f) (hi * f)), maximum := some (max (lo * f) (hi * f)) } }, ?_, rfl, fun h => absurd h hc, fun _ => ⟨_, _, _, ⟨rfl, Or.inl rfl, rfl, rfl, hbd'.1, hbd'.2⟩, fun ht => by simp [hk] at ht, himg hf0⟩⟩
        simp only [NumObj.scale, hf, if_false, hu, hk, uniformRescale, hmn, hmx, getKey_some, ebind_ok]
        rw [uniformRepair_eq rfl rfl, if_neg (hncol hc), if_neg hbd, if_neg hall]
  · -- triangular
    by_cases hc : f = 0 ∨ lo = hi
    · refine ⟨{ o with amount := o.amount * f, uncertainty := none }, ?_, rfl, fun _ => rfl,
        fun hn => absurd hc hn⟩
      simp only [NumObj.scale, hf, if_false, hu, hk, triangularRescale, hmn, hmx, hmode, getKey_some, ebind_ok]
      rw [triangularRepair_eq rfl rfl, if_pos (hcol hc)]
      rfl
    · have hf0 : f ≠ 0 := fun h0 => hc (Or.inl h0)
      refine ⟨{ o with amount := o.amount * f, uncertainty := some { u with mode := some (o.amount * f), minimum := some (min (lo * f) (hi * f)), maximum := some (max (lo * f) (hi * f)) } }, ?_, rfl, fun h => absurd h hc, fun _ => ⟨_, _, _, ⟨rfl, Or.inr ⟨hk, rfl⟩, rfl, rfl, hbd'.1, hbd'.2⟩, fun _ => hk, himg hf0⟩⟩
      simp only [NumObj.scale, hf, if_false, hu, hk, triangularRescale, hmn, hmx, hmode, getKey_some, ebind_ok]
      rw [triangularRepair_eq rfl rfl, if_neg (hncol hc), if_neg hbd]

/-- The hypotheses of C02 hold for a skewed triangular distribution (and for a uniform one). -/
example : Bounded { amount := 3, uncertainty := some { kind := some .triangular, minimum := some 1, mode := some 3, maximum := some 4 } }
    { kind := some .triangular, minimum := some 1, mode := some 3, maximum := some 4 } 1 4 :=
  ⟨rfl, Or.inr ⟨rfl, rfl⟩, rfl, rfl, by norm_num, by norm_num⟩

/-! ## C03 -/

/-- Closed form of scaling for consistent lognormal objects. -/
theorem scale_logConsistent {M : MathEnv} (p : NumObj) (f : ℚ) (w : Unc) (hf : f ≠ 0)
    (hL : LogConsistent M p w) :
        p.scale M f = .ok { p with amount := p.amount * f, uncertainty := some { w with mean := some |p.amount * f|, mu := some (M.log |p.amount * f|), negative := some (decide (p.amount * f < 0)) } } := by
  obtain ⟨hu, hk, h0, hmean, hmu, hneg⟩ := hL
  by_cases h1 : f = 1
  · subst h1
    cases w; cases p
    simp_all [NumObj.scale]
  · simp only [NumObj.scale, h1, if_false, hu, hk, lognormalRescale]
    have hne : ¬ |p.amount * f| ≤ 0 := by
      simp [h0, hf]
    rcases lt_or_gt_of_ne hf with hn | hp
    · have e : -1 * p.amount * |f| = p.amount * f := by rw [abs_of_neg hn]; ring
      rw [if_pos hn, lognormalRescalePos]
      simp only [e, if_neg hne]
      have : (!(w.negative.getD false)) = decide (p.amount * f < 0) := by
        rw [hneg]
        rcases lt_or_gt_of_ne h0 with hh | hh
        · have : ¬ p.amount * f < 0 := not_lt.mpr (mul_pos_of_neg_of_neg hh hn).le
          simp [hh, this]
        · have : p.amount * f < 0 := mul_neg_of_pos_of_neg hh hn
          simp [not_lt.mpr hh.le, this]
      rw [this]
    · rw [if_neg (not_lt.mpr hp.le), if_neg hf, lognormalRescalePos]
      simp only [if_neg hne]
      have : some (decide (p.amount * f < 0)) = w.negative := by
        rw [hneg]
        rcases lt_or_gt_of_ne h0 with hh | hh
        · have : p.amount * f < 0 := mul_neg_of_neg_of_pos hh hp
          simp [hh, this]
        · have : ¬ p.amount * f < 0 := not_lt.mpr (mul_pos hh hp).le
          simp [not_lt.mpr hh.le, this]
      rw [this, hk]


/-- C03: for settled objects, scaling by `a` and then by `b` is scaling by `a * b`; all scalings
succeed. -/
theorem C03_scale_compose (M : MathEnv) (o : NumObj) (a b : ℚ) (ha : a ≠ 0) (hb : b ≠ 0)
    (h : Settled M o) :
    ∃ o₁ o₂, o.scale M a = .ok o₁ ∧ o₁.scale M b = .ok o₂ ∧ o.scale M (a * b) = .ok o₂ ∧
      Settled M o₁ := by
  have hab : a * b ≠ 0 := mul_ne_zero ha hb
  cases h with
  | certain h =>
    have key : ∀ (p : NumObj) (f : ℚ), p.uncertainty = none →
        p.scale M f = .ok { p with amount := p.amount * f } := by
      intro p f hp
      unfold NumObj.scale
      split
      · next h1 => subst h1; simp
      · simp [hp]
    refine ⟨_, _, key _ _ h, key _ _ h, ?_, .certain h⟩
    rw [key _ _ h]; simp [mul_assoc]
  | untyped u h k =>
    have key : ∀ (p : NumObj) (f : ℚ), p.uncertainty = some u →
        p.scale M f = .ok { p with amount := p.amount * f } := by
      intro p f hp
      unfold NumObj.scale
      split
      · next h1 => subst h1; simp
      · simp [hp, k]
    refine ⟨_, _, key _ _ h, key _ _ h, ?_, .untyped u h k⟩
    rw [key _ _ h]; simp [mul_assoc]
  | undefined u lo hi h k hmin hmax =>
    have key : ∀ (p : NumObj) (f : ℚ) (v : Unc) (l m : ℚ), p.uncertainty = some v →
        v.kind = some .undefined → v.minimum = some l → v.maximum = some m →
        p.scale M f = .ok { p with amount := p.amount * f, uncertainty := some { v with minimum := some (l * f), maximum := some (m * f) } } := by
      intro p f v l m hp hk hl hm
      unfold NumObj.scale
      split
      · next h1 => subst h1; cases v; simp_all; rw [← hp]
      · simp [hp, hk, undefinedRescale, hl, hm]
    refine ⟨_, _, key _ _ u lo hi h k hmin hmax, key _ _ _ _ _ rfl k rfl rfl, ?_,
      .undefined _ _ _ rfl k rfl rfl⟩
    rw [key _ _ u lo hi h k hmin hmax]; simp [mul_assoc]
  | normal u v h k ha0 hv =>
    have key : ∀ (p : NumObj) (f : ℚ) (w : Unc) (x : ℚ), f ≠ 0 → p.amount ≠ 0 → p.uncertainty = some w →
        w.kind = some .normal → w.variance = some x →
        p.scale M f = .ok { p with amount := p.amount * f, uncertainty := some { w with variance := some (f ^ 2 * x) } } := by
      intro p f w x hf hp0 hp hk hx
      unfold NumObj.scale
      split
      · next h1 => subst h1; cases w; simp_all; rw [← hp]
      · have : p.amount * f / p.amount = f := by field_simp
        simp [hp, hk, normalRescale, hx, hf, hp0]
    refine ⟨_, _, key _ _ u v ha ha0 h k hv, key _ _ _ _ hb (mul_ne_zero ha0 ha) rfl k rfl, ?_,
      .normal _ _ rfl k (mul_ne_zero ha0 ha) rfl⟩
    rw [key _ _ u v hab ha0 h k hv]; have e : (a * b) ^ 2 * v = b ^ 2 * (a ^ 2 * v) := by ring
    simp only [e, mul_assoc]
  | triangular u lo hi h k hne =>
    have key : ∀ (p : NumObj) (f : ℚ) (w : Unc) (l m : ℚ), f ≠ 0 → Bounded p w l m → l < m →
        w.kind = some .triangular →
        p.scale M f = .ok { p with amount := p.amount * f, uncertainty := some { w with mode := some (p.amount * f), minimum := some (min (l * f) (m * f)), maximum := some (max (l * f) (m * f)) } } := by
      intro p f w l m hf hB hlm hk
      by_cases h1 : f = 1
      · subst h1
        obtain ⟨hu, hk', hmn, hmx, h1, h2⟩ := hB
        have hmode : w.mode = some p.amount := by
          rcases hk' with h | h
          · simp [hk] at h
          · exact h.2
        simp only [NumObj.scale, if_true, mul_one, min_eq_left hlm.le, max_eq_right hlm.le]
        cases w; cases p; simp_all
      · obtain ⟨hu, hk', hmn, hmx, h2, h3⟩ := hB
        have hmode : w.mode = some p.amount := by
          rcases hk' with h | h
          · simp [hk] at h
          · exact h.2
        have hbd : ¬ (p.amount * f < min (l * f) (m * f) ∨ p.amount * f > max (l * f) (m * f)) := by
          push Not
          rcases le_total 0 f with hp | hn
          · exact ⟨min_le_of_left_le (mul_le_mul_of_nonneg_right h2 hp),
              le_max_of_le_right (mul_le_mul_of_nonneg_right h3 hp)⟩
          · exact ⟨min_le_of_right_le (mul_le_mul_of_nonpos_right h3 hn),
              le_max_of_le_left (mul_le_mul_of_nonpos_right h2 hn)⟩
        simp only [NumObj.scale, h1, if_false, hu, hk, triangularRescale, hmn, hmx, hmode,
          getKey_some, ebind_ok]
        rw [triangularRepair_eq rfl rfl, if_neg, if_neg hbd]
        rintro ⟨he, _⟩
        exact hlm.ne (mul_right_cancel₀ hf he)
    have hB1 : Bounded { o with amount := o.amount * a, uncertainty := some { u with mode := some (o.amount * a), minimum := some (min (lo * a) (hi * a)), maximum := some (max (lo * a) (hi * a)) } } { u with mode := some (o.amount * a), minimum := some (min (lo * a) (hi * a)), maximum := some (max (lo * a) (hi * a)) } (min (lo * a) (hi * a)) (max (lo * a) (hi * a)) := by
      refine ⟨rfl, Or.inr ⟨k, rfl⟩, rfl, rfl, ?_, ?_⟩
      · rcases le_total 0 a with hp | hn
        · exact min_le_of_left_le (mul_le_mul_of_nonneg_right h.lo_le hp)
        · exact min_le_of_right_le (mul_le_mul_of_nonpos_right h.le_hi hn)
      · rcases le_total 0 a with hp | hn
        · exact le_max_of_le_right (mul_le_mul_of_nonneg_right h.le_hi hp)
        · exact le_max_of_le_left (mul_le_mul_of_nonpos_right h.lo_le hn)
    have hlt : min (lo * a) (hi * a) < max (lo * a) (hi * a) := by
      refine min_lt_max.mpr ?_
      intro he; exact hne.ne (mul_right_cancel₀ ha he)
    refine ⟨_, _, key _ _ u lo hi ha h hne k, key _ _ _ _ _ hb hB1 hlt k, ?_,
      .triangular _ _ _ hB1 k hlt⟩
    rw [key _ _ u lo hi hab h hne k]
    have e1 : min (lo * (a * b)) (hi * (a * b)) =
        min (min (lo * a) (hi * a) * b) (max (lo * a) (hi * a) * b) := by
      rw [← mul_assoc, ← mul_assoc]
      rcases le_total (lo * a) (hi * a) with hle | hle
      · rw [min_eq_left hle, max_eq_right hle]
      · rw [min_eq_right hle, max_eq_left hle, min_comm]
    have e2 : max (lo * (a * b)) (hi * (a * b)) =
        max (min (lo * a) (hi * a) * b) (max (lo * a) (hi * a) * b) := by
      rw [← mul_assoc, ← mul_assoc]
      rcases le_total (lo * a) (hi * a) with hle | hle
      · rw [min_eq_left hle, max_eq_right hle]
      · rw [min_eq_right hle, max_eq_left hle, max_comm]
    simp only [e1, e2, mul_assoc]
  | lognormal u h =>
    have key := @scale_logConsistent M
    have hL1 : LogConsistent M { o with amount := o.amount * a, uncertainty := some { u with mean := some |o.amount * a|, mu := some (M.log |o.amount * a|), negative := some (decide (o.amount * a < 0)) } } { u with mean := some |o.amount * a|, mu := some (M.log |o.amount * a|), negative := some (decide (o.amount * a < 0)) } :=
      ⟨rfl, h.kind, mul_ne_zero h.nonzero ha, rfl, rfl, rfl⟩
    refine ⟨_, _, key _ _ u ha h, key _ _ _ hb hL1, ?_, .lognormal _ hL1⟩
    rw [key _ _ u hab h]
    simp only [mul_assoc]

/-- C03, on exchanges: scaling twice is scaling by the product. -/
theorem C03_scale_exchange_compose (M : MathEnv) (e : Exchange) (a b : ℚ) (ha : a ≠ 0) (hb : b ≠ 0)
    (h : Settled M e.toNumObj) :
    (scaleExchange M e a >>= fun e₁ => scaleExchange M e₁ b) = scaleExchange M e (a * b) := by
  obtain ⟨o₁, o₂, h1, h2, h3, _⟩ := C03_scale_compose M e.toNumObj a b ha hb h
  simp [scaleExchange, h1, h2, h3]

/-- C03: flipping the sign twice gives the exchange back. -/
theorem C03_flip_twice (M : MathEnv) (e : Exchange) (h : Settled M e.toNumObj) :
    (scaleExchange M e (-1) >>= fun e₁ => scaleExchange M e₁ (-1)) = .ok e := by
  rw [C03_scale_exchange_compose M e (-1) (-1) (by norm_num) (by norm_num) h]
  norm_num
  exact C01_scale_one M e

/-- The law fails for uniform distributions: the absolute tolerance of `np.allclose` turns a scaled
uniform distribution into a triangular one, which scaling back does not undo. -/
theorem C03_uniform_fails (M : MathEnv) :
    ∃ (o : NumObj) (u : Unc), Bounded o u 0 (3/100000000) ∧ u.kind = some .uniform ∧
      (o.scale M 100000000 >>= fun o₁ => o₁.scale M (1/100000000)) ≠ o.scale M 1 := by
  refine ⟨{ amount := 1/100000000, uncertainty := some { kind := some .uniform, minimum := some 0, maximum := some (3/100000000) } }, _, ⟨rfl, Or.inl rfl, rfl, rfl, by norm_num, by norm_num⟩, rfl, ?_⟩
  have h1 : NumObj.scale M { amount := 1/100000000, uncertainty := some { kind := some .uniform, minimum := some 0, maximum := some (3/100000000) } } 100000000 = .ok { amount := 1, uncertainty := some { kind := some .triangular, mode := some 1, minimum := some 0, maximum := some 3 } } := by
    simp [NumObj.scale, uniformRescale, uniformRepair, allclose, triangularRepair]
    norm_num [abs_of_neg, abs_of_pos]
  have h2 : NumObj.scale M { amount := 1, uncertainty := some { kind := some .triangular, mode := some 1, minimum := some 0, maximum := some 3 } } (1/100000000) = .ok { amount := 1/100000000, uncertainty := some { kind := some .triangular, mode := some (1/100000000), minimum := some 0, maximum := some (3/100000000) } } := by
    norm_num [NumObj.scale, triangularRescale, triangularRepair]
  rw [h1, ebind_ok, h2]
  simp [NumObj.scale]

/-- Settled objects exist for a lognormal distribution with a negative amount. -/
example : Settled sampleM { amount := -2, uncertainty := some { kind := some .lognormal, mean := some 2, mu := some 1, negative := some true, variance := some (1/2), variancePed := some (1/2) } } :=
  .lognormal _ ⟨rfl, rfl, by norm_num, by norm_num, by norm_num [sampleM], by decide +kernel⟩

/-! ## C04 -/

/-- C04: a consistent lognormal exchange stays consistent under scaling by any nonzero factor, and its
variances do not change. -/
theorem C04_scale_lognormal (M : MathEnv) (o : NumObj) (u : Unc) (f : ℚ) (hf : f ≠ 0)
    (h : LogConsistent M o u) :
    ∃ o' u', o.scale M f = .ok o' ∧ LogConsistent M o' u' ∧ o'.amount = o.amount * f ∧
      u'.variance = u.variance ∧ u'.variancePed = u.variancePed :=
  ⟨_, _, scale_logConsistent o f u hf h,
    ⟨rfl, h.kind, mul_ne_zero h.nonzero hf, rfl, rfl, rfl⟩, rfl, rfl, rfl⟩

/-- C04: consistency is an invariant of every sequence of scalings by nonzero factors. -/
theorem C04_scale_sequence (M : MathEnv) (fs : List ℚ) (hfs : ∀ f ∈ fs, f ≠ 0) (o : NumObj) (u : Unc)
    (h : LogConsistent M o u) :
    ∃ o' u', fs.foldlM (fun p f => p.scale M f) o = .ok o' ∧ LogConsistent M o' u' ∧
      o'.amount = o.amount * fs.prod ∧ u'.variance = u.variance ∧ u'.variancePed = u.variancePed := by
  induction fs generalizing o u with
  | nil => exact ⟨o, u, rfl, h, by simp, rfl, rfl⟩
  | cons f fs ih =>
    obtain ⟨o1, u1, h1, h2, h3, h4, h5⟩ := C04_scale_lognormal M o u f (hfs f (by simp)) h
    obtain ⟨o2, u2, g1, g2, g3, g4, g5⟩ := ih (fun x hx => hfs x (by simp [hx])) o1 u1 h2
    refine ⟨o2, u2, ?_, g2, ?_, g4.trans h4, g5.trans h5⟩
    · simp [List.foldlM_cons, h1, g1]
    · rw [g3, h3, List.prod_cons, mul_assoc]

/-- C04: for every lognormal exchange, consistent or not, the `negative` flag is toggled exactly for
negative factors, and `mean`, `mu` are recomputed from the new amount. -/
theorem C04_flag_toggle (M : MathEnv) (o o' : NumObj) (u : Unc) (f : ℚ)
    (hu : o.uncertainty = some u) (hk : u.kind = some .lognormal) (hf : f ≠ 0) (hf1 : f ≠ 1)
    (h : o.scale M f = .ok o') :
    ∃ u', o'.uncertainty = some u' ∧ u'.mean = some |o'.amount| ∧ u'.mu = some (M.log |o'.amount|) ∧
      u'.negative = if f < 0 then some (!(u.negative.getD false)) else u.negative := by
  simp only [NumObj.scale, hf1, if_false, hu, hk, lognormalRescale] at h
  split at h
  · next hn =>
    unfold lognormalRescalePos at h
    simp only at h
    split at h
    · cases h
    · cases h
      exact ⟨_, rfl, rfl, rfl, by simp [hn]⟩
  · next hn =>
    unfold lognormalRescalePos at h
    simp only at h
    split at h
    · cases h
    · cases h
      exact ⟨_, rfl, rfl, rfl, by simp [hn]⟩

/-- C04: repair establishes consistency (unless it removes the uncertainty). -/
theorem C04_repair_lognormal (M : MathEnv) (o o' : NumObj) (u : Unc) (hu : o.uncertainty = some u)
    (hk : u.kind = some .lognormal) (h : repair M o = .ok o') :
    o'.uncertainty = none ∨ ∃ u', LogConsistent M o' u' := by
  simp only [repair, hu, hk, lognormalRepair] at h
  split at h
  · cases h; exact Or.inl rfl
  next h0 =>
  rcases hv : u.variancePed with _ | v
  · simp [hv] at h
  simp only [hv, getKey_some, ebind_ok, epure] at h
  split at h
  · cases h; exact Or.inl rfl
  rcases hp : objPedigreeVariance o with e | p
  · simp [hp] at h
  simp only [hp, ebind_ok] at h
  right
  split at h
  · cases h; exact ⟨_, rfl, rfl, h0, rfl, rfl, rfl⟩
  split at h
  · cases h; exact ⟨_, rfl, rfl, h0, rfl, rfl, rfl⟩
  · cases h; exact ⟨_, rfl, rfl, h0, rfl, rfl, rfl⟩

example : LogConsistent sampleM { amount := -2, uncertainty := some { kind := some .lognormal, mean := some 2, mu := some 1, negative := some true, variance := some (1/2), variancePed := some (1/2) } } { kind := some .lognormal, mean := some 2, mu := some 1, negative := some true, variance := some (1/2), variancePed := some (1/2) } :=
  ⟨rfl, rfl, by norm_num, by norm_num, by norm_num [sampleM], by decide +kernel⟩

/-! ## C05 -/

/-- C05 (partial: the spread): scaling a normal distribution multiplies its variance by the square of
the factor, so `variance / amount ^ 2` is preserved. The location is *not* updated, see
`C05_location_stale`. -/
theorem C05_normal_scale_partial (M : MathEnv) (o : NumObj) (u : Unc) (v f : ℚ)
    (hu : o.uncertainty = some u) (hk : u.kind = some .normal) (hv : u.variance = some v)
    (ha : o.amount ≠ 0) (hf : f ≠ 0) :
    ∃ o' u' v', o.scale M f = .ok o' ∧ o'.uncertainty = some u' ∧ u'.kind = some .normal ∧
      u'.variance = some v' ∧ v' = f ^ 2 * v ∧ v' / o'.amount ^ 2 = v / o.amount ^ 2 := by
  by_cases h1 : f = 1
  · subst h1
    exact ⟨o, u, v, by simp [NumObj.scale], hu, hk, hv, by ring, rfl⟩
  · have e : o.amount * f / o.amount = f := by field_simp
    refine ⟨{ o with amount := o.amount * f, uncertainty := some { u with variance := some (f ^ 2 * v) } }, _, _, ?_, rfl, hk, rfl, rfl, ?_⟩
    · simp [NumObj.scale, h1, hu, hk, normalRescale, hf, ha, hv]
    · simp only; field_simp

/-- C05 is violated by the code: after repair (`mean = amount`) and scaling by any factor other than
0 and 1, the location parameter handed to the sampler is still the *old* amount. -/
theorem C05_location_stale (M : MathEnv) (o : NumObj) (u : Unc) (v f : ℚ)
    (hu : o.uncertainty = some u) (hk : u.kind = some .normal) (hv : u.variance = some v)
    (hm : u.mean = some o.amount) (ha : o.amount ≠ 0) (hf : f ≠ 0) (hf1 : f ≠ 1) :
    ∃ o' l, o.scale M f = .ok o' ∧ statsLoc o' = .ok (some l) ∧ l = o.amount ∧ l ≠ o'.amount := by
  have e : o.amount * f / o.amount = f := by field_simp
  refine ⟨{ o with amount := o.amount * f, uncertainty := some { u with variance := some (f ^ 2 * v) } }, o.amount, ?_, ?_, rfl, ?_⟩
  · simp [NumObj.scale, hf1, hu, hk, normalRescale, hf, ha, hv]
  · simp [statsLoc, hk, hm]
  · intro h
    have h : o.amount = o.amount * f := h
    exact hf1 (mul_left_cancel₀ ha (by rw [mul_one]; exact h.symm))

/-- For every other supported distribution with a location, the location does follow the amount:
triangular after scaling. -/
theorem C05_location_triangular (M : MathEnv) (o o' : NumObj) (u : Unc) (f : ℚ)
    (hu : o.uncertainty = some u) (hk : u.kind = some .triangular) (hf1 : f ≠ 1)
    (h : o.scale M f = .ok o') : statsLoc o' = .ok (some o'.amount) := by
  simp only [NumObj.scale, hf1, if_false, hu, hk, triangularRescale] at h
  rcases hmn : u.minimum with _ | mn
  · simp [hmn] at h
  rcases hmd : u.mode with _ | md
  · simp [hmn, hmd] at h
  rcases hmx : u.maximum with _ | mx
  · simp [hmn, hmd, hmx] at h
  simp only [hmn, hmd, hmx, getKey_some, ebind_ok] at h
  rw [triangularRepair_eq rfl rfl] at h
  repeat' split at h
  · cases h; rfl
  · cases h; rfl
  · cases h; simp [statsLoc]

example : repair sampleM { amount := 2, uncertainty := some { kind := some .normal, mean := some 9, variance := some 1, variancePed := some 1 } } = .ok { amount := 2, uncertainty := some { kind := some .normal, mean := some 2, variance := some 1, variancePed := some 1 } } := by
  decide +kernel

/-! ## C06 -/

/-- The pedigree variance is never negative when it is defined. -/
theorem getPedigreeVariance_nonneg : ∀ (pm : List (String × Int)) (v : ℚ),
    getPedigreeVariance pm = .ok v → 0 ≤ v := by
  have hrow : ∀ (k : String) (row : List ℚ), pedigreeTable.lookup k = some row → ∀ x ∈ row, 0 ≤ x := by
    intro k row hk x hx
    have hmem : ∃ k', (k', row) ∈ pedigreeTable := by
      clear hx
      revert hk
      generalize pedigreeTable = t
      induction t with
      | nil => simp
      | cons a t ih =>
        intro h
        rw [List.lookup_cons] at h
        split at h
        · cases h; exact ⟨a.1, by simp⟩
        · obtain ⟨k', hk'⟩ := ih h
          exact ⟨k', by simp [hk']⟩
    obtain ⟨k', hm⟩ := hmem
    have hall : ∀ p ∈ pedigreeTable, ∀ y ∈ p.2, (0 : ℚ) ≤ y := by
      simp [pedigreeTable]
      norm_num
    exact hall _ hm x hx
  have hterm : ∀ kv x, pedigreeTerm kv = .ok x → 0 ≤ x := by
    intro kv x h
    unfold pedigreeTerm at h
    split at h
    · cases h
    · next row hr =>
      have hidx : ∀ i, pyIndex row i = .ok x → x ∈ row := by
        intro i hi
        unfold pyIndex at hi
        generalize (if i < 0 then i + (row.length : Int) else i) = j at hi
        simp only at hi
        split at hi
        · cases hi
        · split at hi
          · next hj => cases hi; exact List.mem_of_getElem? hj
          · cases hi
      exact hrow _ _ hr _ (hidx _ h)
  intro pm
  induction pm with
  | nil => intro v h; cases h; exact le_refl _
  | cons kv pm ih =>
    intro v h
    rw [getPedigreeVariance] at h
    obtain ⟨a, ha, h⟩ := bind_eq_ok.mp h
    obtain ⟨b, hb, h⟩ := bind_eq_ok.mp h
    cases h
    exact add_nonneg (hterm _ _ ha) (ih _ hb)

/-- C06 (partial): repairing twice is the same as repairing once, for every object – except lognormal
objects whose variance net of pedigree is exactly `1` with zero pedigree variance, or exactly `e`
(`C06_lognormal_not_idempotent` shows that these really fail). `log` is only assumed to map `(1, e)`
into `(0, 1)` and to be nonnegative at 1; `e > 1`. -/
theorem C06_repair_idempotent_partial (M : MathEnv) (o o' : NumObj)
    (he : 1 < M.e) (hlog1 : ∀ x, 1 < x → x < M.e → 0 < M.log x ∧ M.log x < 1) (hlog0 : M.log 1 = 0)
    (hexc : ∀ u vp pv, o.uncertainty = some u → u.kind = some .lognormal → u.variancePed = some vp →
      objPedigreeVariance o = .ok pv → (vp - pv = 1 → pv ≠ 0) ∧ vp - pv ≠ M.e)
    (h : repair M o = .ok o') : repair M o' = .ok o' := by
  unfold repair at h
  split at h
  · cases h; simp_all [repair]
  next u hu =>
  split at h
  · cases h; simp_all [repair]
  · cases h; simp_all [repair]
  · -- lognormal
    next hk =>
    unfold lognormalRepair at h
    split at h
    · cases h; rfl
    next h0 =>
    rcases hv : u.variancePed with _ | vp
    · simp [hv] at h
    simp only [hv, getKey_some, ebind_ok, epure] at h
    split at h
    · cases h; rfl
    next hvp =>
    rcases hp : objPedigreeVariance o with e | p
    · simp [hp] at h
    obtain ⟨hx1, hx2⟩ := hexc u vp p hu hk hv hp
    have hp0 : 0 ≤ p := getPedigreeVariance_nonneg _ _ hp
    simp only [hp, ebind_ok] at h
    split at h
    · next hb =>
      cases h
      have hped : ∀ w, objPedigreeVariance { o with uncertainty := w } = .ok p := fun w => hp
      simp only [repair, hk, lognormalRepair, h0, if_false, getKey_some, ebind_ok, epure, hped]
      have hne : ¬ (M.log (vp - p) + p = 0) := by
        rcases eq_or_lt_of_le hb.1 with h1 | h1
        · rw [← h1, hlog0]; simpa using hx1 h1.symm
        · have := (hlog1 _ h1 (lt_of_le_of_ne hb.2 hx2)).1
          intro hc; linarith
      have hlt : M.log (vp - p) < 1 := by
        rcases eq_or_lt_of_le hb.1 with h1 | h1
        · rw [← h1, hlog0]; norm_num
        · exact (hlog1 _ h1 (lt_of_le_of_ne hb.2 hx2)).2
      have e1 : M.log (vp - p) + p - p = M.log (vp - p) := by ring
      rw [if_neg hne, e1, if_neg (by intro hc; linarith [hc.1]), if_neg (by intro hc; linarith)]
    · split at h
      · cases h
        have hped : ∀ w, objPedigreeVariance { o with uncertainty := w } = .ok p := fun w => hp
        simp only [repair, hk, lognormalRepair, h0, if_false, getKey_some, ebind_ok, epure, hped]
        have e1 : (1/4 : ℚ) + p - p = 1/4 := by ring
        rw [if_neg (by intro hc; linarith), e1, if_neg (by norm_num), if_neg (by intro hc; linarith)]
      · next hb1 hb2 =>
        cases h
        have hped : ∀ w, objPedigreeVariance { o with uncertainty := w } = .ok p := fun w => hp
        simp only [repair, hk, lognormalRepair, h0, if_false, getKey_some, ebind_ok, epure, hped]
        rw [if_neg hvp, if_neg hb1, if_neg hb2]
  · next hk =>
    unfold normalRepair at h
    rcases hv : u.variancePed with _ | vp
    · simp [hv] at h
    simp only [hv, getKey_some, ebind_ok, epure] at h
    split at h
    · cases h; rfl
    · next hvp => cases h; simp [repair, hk, normalRepair, hvp]
  · next hk =>
    rcases hmn : u.minimum with _ | mn
    · simp [triangularRepair, hmn] at h
    rcases hmx : u.maximum with _ | mx
    · simp [triangularRepair, hmn, hmx] at h
    rw [triangularRepair_eq hmn hmx] at h
    split at h
    · cases h; rfl
    next hne =>
    split at h
    · cases h; rfl
    next hbd =>
    cases h
    simp only [repair, hk]
    rw [triangularRepair_eq rfl rfl, min_eq_left min_le_max, max_eq_right min_le_max,
      if_neg, if_neg hbd]
    rintro ⟨h1, h2⟩
    have : mn = mx := by
      by_contra hc
      exact absurd h1 (min_lt_max.mpr hc).ne
    subst this
    simp at h2
    exact hne ⟨rfl, h2⟩
  · next hk =>
    rcases hmn : u.minimum with _ | mn
    · simp [uniformRepair, hmn] at h
    rcases hmx : u.maximum with _ | mx
    · simp [uniformRepair, hmn, hmx] at h
    rw [uniformRepair_eq hmn hmx] at h
    split at h
    · cases h; rfl
    next hne =>
    split at h
    · cases h
    next hbd =>
    have hne' : ¬ (min mn mx = max mn mx ∧ max mn mx = o.amount) := by
      rintro ⟨h1, h2⟩
      have : mn = mx := by
        by_contra hc
        exact absurd h1 (min_lt_max.mpr hc).ne
      subst this
      simp at h2
      exact hne ⟨rfl, h2⟩
    split at h
    · rw [triangularRepair_eq rfl rfl, min_eq_left min_le_max, max_eq_right min_le_max,
        if_neg hne', if_neg hbd] at h
      cases h
      simp only [repair]
      rw [triangularRepair_eq rfl rfl, min_eq_left min_le_max, max_eq_right min_le_max,
        if_neg hne', if_neg hbd]
    · next hall =>
      cases h
      simp only [repair, hk]
      rw [uniformRepair_eq rfl rfl, min_eq_left min_le_max, max_eq_right min_le_max,
        if_neg hne', if_neg hbd, min_add_max, if_neg hall]
  · cases h

/-- C06 is violated on the boundary: with variance exactly one and no pedigree data, the first repair
sets the variance to `log 1 = 0` and the second removes the distribution. -/
theorem C06_lognormal_not_idempotent (M : MathEnv) (he : 1 < M.e) (hlog0 : M.log 1 = 0) :
    ∃ o o₁ o₂ : NumObj, repair M o = .ok o₁ ∧ repair M o₁ = .ok o₂ ∧
      o₁.uncertainty ≠ none ∧ o₂.uncertainty = none := by
  refine ⟨{ amount := 5, uncertainty := some { kind := some .lognormal, variancePed := some 1 } },
    { amount := 5, uncertainty := some { kind := some .lognormal, mean := some 5, negative := some false, mu := some (M.log 5), variance := some 0, variancePed := some 0 } }, { amount := 5 }, ?_, ?_, by simp, rfl⟩
  · simp [repair, lognormalRepair, objPedigreeVariance, getPedigreeVariance, he.le, hlog0]
  · simp [repair, lognormalRepair, NumObj.removeUncertainty]

/-- An oracle satisfying the hypotheses of the theorem exists. -/
example : ∃ M : MathEnv, 1 < M.e ∧ (∀ x, 1 < x → x < M.e → 0 < M.log x ∧ M.log x < 1) ∧ M.log 1 = 0 :=
  ⟨⟨fun x => (x - 1) / 2, 3⟩, by norm_num, by intro x h1 h2; constructor <;> (simp only at *; linarith), by norm_num⟩

/-! ## C07 -/

/-- C07: repair never changes anything but the uncertainty, and leaves a valid distribution. -/
theorem C07_repair_valid (M : MathEnv) (o o' : NumObj) (h : repair M o = .ok o') :
    o' = { o with uncertainty := o'.uncertainty } ∧ Repaired M o' := by
  refine ⟨repair_frame h, ?_⟩
  have h' := h
  unfold repair at h
  split at h
  · next hu => cases h; exact .certain hu
  next u hu =>
  split at h
  · next hk => cases h; exact .unchecked u hu (Or.inl hk)
  · next hk => cases h; exact .unchecked u hu (Or.inr hk)
  · next hk =>
    rcases C04_repair_lognormal M o o' u hu hk h' with h1 | ⟨u', h1⟩
    · exact .certain h1
    · exact .lognormal u' h1
  · next hk =>
    unfold normalRepair at h
    rcases hv : u.variancePed with _ | vp
    · simp [hv] at h
    simp only [hv, getKey_some, ebind_ok, epure] at h
    split at h
    · cases h; exact .certain rfl
    · cases h; exact .normal _ rfl hk rfl
  · next hk =>
    rcases hmn : u.minimum with _ | mn
    · simp [triangularRepair, hmn] at h
    rcases hmx : u.maximum with _ | mx
    · simp [triangularRepair, hmn, hmx] at h
    rw [triangularRepair_eq hmn hmx] at h
    split at h
    · cases h; exact .certain rfl
    next hne =>
    split at h
    · cases h; exact .certain rfl
    next hbd =>
    cases h
    push Not at hbd
    refine .bounded _ _ _ ⟨rfl, Or.inr ⟨hk, rfl⟩, rfl, rfl, hbd.1, hbd.2⟩ ?_
    refine min_lt_max.mpr fun hc => ?_
    subst hc
    simp only [min_self, max_self] at hbd
    exact hne ⟨rfl, le_antisymm hbd.1 hbd.2⟩
  · next hk =>
    rcases hmn : u.minimum with _ | mn
    · simp [uniformRepair, hmn] at h
    rcases hmx : u.maximum with _ | mx
    · simp [uniformRepair, hmn, hmx] at h
    rw [uniformRepair_eq hmn hmx] at h
    split at h
    · cases h; exact .certain rfl
    next hne =>
    split at h
    · cases h
    next hbd =>
    have hlt : min mn mx < max mn mx := by
      refine min_lt_max.mpr fun hc => ?_
      subst hc
      push Not at hbd
      simp only [min_self, max_self] at hbd
      exact hne ⟨rfl, le_antisymm hbd.1 hbd.2⟩
    have hbd' := hbd
    push Not at hbd'
    split at h
    · rw [triangularRepair_eq rfl rfl, min_eq_left min_le_max, max_eq_right min_le_max,
        if_neg (fun hc => hlt.ne hc.1), if_neg hbd] at h
      cases h
      exact .bounded _ _ _ ⟨rfl, Or.inr ⟨rfl, rfl⟩, rfl, rfl, hbd'.1, hbd'.2⟩ hlt
    · cases h
      exact .bounded _ _ _ ⟨rfl, Or.inl hk, rfl, rfl, hbd'.1, hbd'.2⟩ hlt
  · cases h

/-- C07: what becomes of a uniform distribution whose bounds are not both the amount: its bounds are put in order, and it stays uniform
exactly if the amount is the middle of the bounds up to a hundred-millionth plus a hundred-thousandth of the middle; otherwise it becomes
a triangular distribution with the amount as mode. -/
theorem C07_uniform_repaired (M : MathEnv) (o o' : NumObj) (u : Unc) (mn mx : ℚ) (h : repair M o = .ok o') (hu : o.uncertainty = some u) (hk : u.kind = some .uniform)
    (hmn : u.minimum = some mn) (hmx : u.maximum = some mx) (hne : ¬ (mn = o.amount ∧ mx = o.amount)) :
    (|o.amount - (mn + mx) / 2| ≤ 1 / 10 ^ 8 + 1 / 10 ^ 5 * |(mn + mx) / 2| → o'.uncertainty = some { u with minimum := some (min mn mx), maximum := some (max mn mx) }) ∧
    (1 / 10 ^ 8 + 1 / 10 ^ 5 * |(mn + mx) / 2| < |o.amount - (mn + mx) / 2| →
      o'.uncertainty = some { u with kind := some .triangular, mode := some o.amount, minimum := some (min mn mx), maximum := some (max mn mx) }) := by
  unfold repair at h
  simp only [hu, hk] at h
  rw [uniformRepair_eq hmn hmx, if_neg (fun hc => hne ⟨hc.1.trans hc.2, hc.2⟩)] at h
  split at h
  · cases h
  next hbd =>
  have hlt : min mn mx < max mn mx := by
    refine min_lt_max.mpr fun hc => ?_
    subst hc
    push Not at hbd
    simp only [min_self, max_self] at hbd
    exact hne ⟨le_antisymm hbd.1 hbd.2, le_antisymm hbd.1 hbd.2⟩
  split at h
  · next hall =>
    rw [triangularRepair_eq rfl rfl, min_eq_left min_le_max, max_eq_right min_le_max, if_neg (fun hc => hlt.ne hc.1), if_neg hbd] at h
    cases h
    refine ⟨fun hle => ?_, fun _ => rfl⟩
    unfold allclose at hall
    rw [decide_eq_false_iff_not] at hall
    exact absurd (by norm_num at hle ⊢; exact hle) hall
  · next hall =>
    cases h
    refine ⟨fun _ => rfl, fun hlt' => ?_⟩
    simp only [allclose, Bool.not_eq_false, decide_eq_true_eq] at hall
    exact absurd hlt' (not_lt.mpr (by norm_num at hall ⊢; exact hall))

example : repair sampleM { amount := 3, uncertainty := some { kind := some .uniform, minimum := some 4, maximum := some 2 } } = .ok { amount := 3, uncertainty := some { kind := some .uniform, minimum := some 2, maximum := some 4 } } ∧
    repair sampleM { amount := 3, uncertainty := some { kind := some .uniform, minimum := some 5, maximum := some 2 } } = .ok { amount := 3, uncertainty := some { kind := some .triangular, mode := some 3, minimum := some 2, maximum := some 5 } } := by
  constructor <;> decide +kernel

/-- C07: on an object that has the keys its distribution needs, repair raises exactly for a uniform
distribution whose amount is outside its bounds. -/
theorem C07_repair_errors (M : MathEnv) (o : NumObj) (u : Unc) (err : Err)
    (hu : o.uncertainty = some u)
    (hsup : ∀ s, u.kind ≠ some (.other s))
    (hln : u.kind = some .lognormal → u.variancePed ≠ none ∧ ∃ pv, objPedigreeVariance o = .ok pv)
    (hn : u.kind = some .normal → u.variancePed ≠ none)
    (hb : u.kind = some .uniform ∨ u.kind = some .triangular → ∃ a b, u.minimum = some a ∧ u.maximum = some b) :
    repair M o = .error err ↔ err = .valueError ∧ u.kind = some .uniform ∧
      ∃ a b, u.minimum = some a ∧ u.maximum = some b ∧ ((o.amount < a ∧ o.amount < b) ∨ (a < o.amount ∧ b < o.amount)) := by
  unfold repair
  simp only [hu]
  rcases hk : u.kind with _ | k
  · simp
  cases k with
  | undefined => simp
  | other s => exact absurd hk (hsup s)
  | normal =>
    obtain ⟨v, hv⟩ := Option.ne_none_iff_exists'.mp (hn hk)
    simp only [normalRepair, hv, getKey_some, ebind_ok, epure]
    split <;> simp
  | lognormal =>
    obtain ⟨v, hv⟩ := Option.ne_none_iff_exists'.mp (hln hk).1
    obtain ⟨p, hp⟩ := (hln hk).2
    simp only [lognormalRepair, hv, getKey_some, ebind_ok, epure, hp]
    repeat' split
    all_goals simp
  | triangular =>
    obtain ⟨a, b, ha, hb⟩ := hb (Or.inr hk)
    simp only [triangularRepair_eq ha hb]
    repeat' split
    all_goals simp
  | uniform =>
    obtain ⟨a, b, ha, hb⟩ := hb (Or.inl hk)
    simp only [uniformRepair_eq ha hb]
    split
    · next h1 =>
      obtain ⟨h1, h2⟩ := h1
      simp only [ha, hb, reduceCtorEq, false_iff]
      rintro ⟨_, _, a', b', e1, e2, h⟩
      cases e1; cases e2
      rcases h with h | h <;> linarith [h.1, h.2]
    · split
      · next hout =>
        simp only [ha, hb, Option.some.injEq, true_and, exists_and_left, Except.error.injEq,
          ↓existsAndEq]
        rw [lt_min_iff, gt_iff_lt, max_lt_iff] at hout
        constructor
        · intro h; exact ⟨h.symm, hout⟩
        · intro h; exact h.1.symm
      · next hout =>
        have hR : ¬ ∃ a' b', u.minimum = some a' ∧ u.maximum = some b' ∧
            ((o.amount < a' ∧ o.amount < b') ∨ (a' < o.amount ∧ b' < o.amount)) := by
          rintro ⟨a', b', e1, e2, h⟩
          rw [ha] at e1; rw [hb] at e2
          cases e1; cases e2
          rw [lt_min_iff, gt_iff_lt, max_lt_iff] at hout
          exact hout h
        split
        · rw [triangularRepair_eq rfl rfl]
          repeat' split
          all_goals simpa using fun _ => by simpa using hR
        · simpa using fun _ => by simpa using hR

example : repair sampleM { amount := 9, uncertainty := some { kind := some .uniform, minimum := some 2, maximum := some 4 } } = .error .valueError := by
  decide +kernel

example : repair sampleM { amount := 3, uncertainty := some { kind := some .uniform, minimum := some 4, maximum := some 2 } } = .ok { amount := 3, uncertainty := some { kind := some .uniform, minimum := some 2, maximum := some 4 } } := by
  decide +kernel

end Ocelot
