import Verif.Spec.Rounding
import Mathlib.Tactic.Linarith
import Mathlib.Tactic.Positivity
import Mathlib.Tactic.FieldSimp
import Mathlib.Tactic.Ring
import Mathlib.Tactic.NormNum
import Mathlib.Algebra.Order.BigOperators.Group.List
import Mathlib.Algebra.Order.Ring.Pow
import Mathlib.Algebra.Order.Group.MinMax

/-!
# Facts about rounding

The relation `Near` behaves well under the arithmetic operations; double precision is an instance of
`Rounding`.
-/

namespace Ocelot.Spec

namespace Rounding

variable (R : Rounding)

theorem u_lt : R.u < 1 := lt_of_le_of_lt R.small (by norm_num)

theorem zero : R.fl 0 = 0 := by
  have h := R.close 0
  simp only [abs_zero, mul_zero, sub_zero] at h
  exact abs_nonpos_iff.1 h

theorem fl_nonneg {x : ℚ} (h : 0 ≤ x) : 0 ≤ R.fl x := by
  have := R.mono h
  rwa [R.zero] at this

theorem fl_nonpos {x : ℚ} (h : x ≤ 0) : R.fl x ≤ 0 := by
  have := R.mono h
  rwa [R.zero] at this

theorem fl_pos {x : ℚ} (h : 0 < x) : 0 < R.fl x := by
  have := (abs_le.1 (R.close x)).1
  rw [abs_of_pos h] at this
  have hu := R.u_lt
  nlinarith

theorem fl_neg {x : ℚ} (h : x < 0) : R.fl x < 0 := by
  have h' := R.fl_pos (x := -x) (by linarith)
  rw [R.odd] at h'
  linarith

theorem fl_eq_zero {x : ℚ} : R.fl x = 0 ↔ x = 0 := by
  constructor
  · intro h
    rcases lt_trichotomy x 0 with hx | hx | hx
    · exact absurd h (ne_of_lt (R.fl_neg hx))
    · exact hx
    · exact absurd h (ne_of_gt (R.fl_pos hx))
  · rintro rfl
    exact R.zero

theorem abs_fl (x : ℚ) : |R.fl x| = R.fl |x| := by
  rcases le_total 0 x with h | h
  · rw [abs_of_nonneg h, abs_of_nonneg (R.fl_nonneg h)]
  · rw [abs_of_nonpos h, abs_of_nonpos (R.fl_nonpos h), R.odd]

theorem abs_fl_le (x : ℚ) : |R.fl x| ≤ (1 + R.u) * |x| := by
  have h := R.close x
  have : |R.fl x| ≤ |R.fl x - x| + |x| := by
    have := abs_add_le (R.fl x - x) x
    simpa using this
  linarith

theorem le_abs_fl (x : ℚ) : (1 - R.u) * |x| ≤ |R.fl x| := by
  have h := R.close x
  have : |x| ≤ |R.fl x - x| + |R.fl x| := by
    have := abs_sub (R.fl x) (R.fl x - x)
    have h' := abs_add_le (x - R.fl x) (R.fl x)
    rw [abs_sub_comm x] at h'
    simpa using h'
  linarith

theorem near {x : ℚ} (h : 0 ≤ x) : Near R.u 1 (R.fl x) x := by
  have h1 := abs_le.1 (R.close x)
  rw [abs_of_nonneg h] at h1
  have hu := R.u_lt
  have h0 := R.nonneg
  constructor
  · rw [pow_one]; linarith [h1.1]
  · rw [pow_one]
    have : R.fl x ≤ (1 + R.u) * x := by linarith [h1.2]
    have h2 : (1 - R.u) * R.fl x ≤ (1 - R.u) * ((1 + R.u) * x) := mul_le_mul_of_nonneg_left this (by linarith)
    have h3 : 0 ≤ R.u * R.u * x := by positivity
    nlinarith

end Rounding

/-! ## Near -/

section
variable {u : ℚ} {m k : ℕ} {x y z a b c d : ℚ}

theorem near_refl (u x : ℚ) : Near u 0 x x := by constructor <;> simp

theorem near_symm (h : Near u m x y) : Near u m y x := ⟨h.2, h.1⟩

theorem near_trans (h1 : u ≤ 1) (h : Near u m x y) (h' : Near u k y z) : Near u (m + k) x z := by
  have hp : 0 ≤ (1 - u) ^ m := pow_nonneg (by linarith) m
  have hk : 0 ≤ (1 - u) ^ k := pow_nonneg (by linarith) k
  constructor
  · calc (1 - u) ^ (m + k) * z = (1 - u) ^ m * ((1 - u) ^ k * z) := by rw [pow_add]; ring
      _ ≤ (1 - u) ^ m * y := mul_le_mul_of_nonneg_left h'.1 hp
      _ ≤ x := h.1
  · calc (1 - u) ^ (m + k) * x = (1 - u) ^ k * ((1 - u) ^ m * x) := by rw [pow_add]; ring
      _ ≤ (1 - u) ^ k * y := mul_le_mul_of_nonneg_left h.2 hk
      _ ≤ z := h'.2

theorem near_mono (h0 : 0 ≤ u) (h1 : u ≤ 1) (hx : 0 ≤ x) (hy : 0 ≤ y) (hm : m ≤ k) (h : Near u m x y) : Near u k x y := by
  have hp : (1 - u) ^ k ≤ (1 - u) ^ m := pow_le_pow_of_le_one (by linarith) (by linarith) hm
  exact ⟨le_trans (mul_le_mul_of_nonneg_right hp hy) h.1, le_trans (mul_le_mul_of_nonneg_right hp hx) h.2⟩

theorem near_mul (h1 : u ≤ 1) (ha : 0 ≤ a) (hb : 0 ≤ b) (hc : 0 ≤ c) (hd : 0 ≤ d) (h : Near u m a b) (h' : Near u k c d) :
    Near u (m + k) (a * c) (b * d) := by
  have hp : 0 ≤ (1 - u) ^ m := pow_nonneg (by linarith) m
  have hk : 0 ≤ (1 - u) ^ k := pow_nonneg (by linarith) k
  constructor
  · calc (1 - u) ^ (m + k) * (b * d) = ((1 - u) ^ m * b) * ((1 - u) ^ k * d) := by rw [pow_add]; ring
      _ ≤ a * c := mul_le_mul h.1 h'.1 (mul_nonneg hk hd) ha
  · calc (1 - u) ^ (m + k) * (a * c) = ((1 - u) ^ m * a) * ((1 - u) ^ k * c) := by rw [pow_add]; ring
      _ ≤ b * d := mul_le_mul h.2 h'.2 (mul_nonneg hk hc) hb

theorem near_inv (ha : 0 < a) (hb : 0 < b) (h : Near u m a b) : Near u m a⁻¹ b⁻¹ := by
  constructor
  · rw [← div_eq_mul_inv, div_le_iff₀ hb]
    have := h.2
    rw [inv_mul_eq_div, le_div_iff₀ ha]
    exact this
  · rw [← div_eq_mul_inv, div_le_iff₀ ha]
    have := h.1
    rw [inv_mul_eq_div, le_div_iff₀ hb]
    exact this

theorem near_div (h1 : u ≤ 1) (ha : 0 ≤ a) (hb : 0 ≤ b) (hc : 0 < c) (hd : 0 < d) (h : Near u m a b) (h' : Near u k c d) :
    Near u (m + k) (a / c) (b / d) := by
  rw [div_eq_mul_inv, div_eq_mul_inv]
  exact near_mul h1 ha hb (inv_nonneg.2 hc.le) (inv_nonneg.2 hd.le) h (near_inv hc hd h')

theorem near_add (h : Near u m a b) (h' : Near u m c d) : Near u m (a + c) (b + d) := by
  constructor
  · have := add_le_add h.1 h'.1; linarith
  · have := add_le_add h.2 h'.2; linarith

theorem near_pos (h1 : u < 1) (h : Near u m a b) (hb : 0 < b) : 0 < a :=
  lt_of_lt_of_le (mul_pos (pow_pos (by linarith) m) hb) h.1

/-- Term by term closeness carries over to the sums. -/
theorem near_sum {α} (f g : α → ℚ) (l : List α) (h : ∀ x ∈ l, Near u m (f x) (g x)) : Near u m (l.map f).sum (l.map g).sum := by
  induction l with
  | nil => constructor <;> simp
  | cons x l ih =>
    simp only [List.map_cons, List.sum_cons]
    exact near_add (h x (by simp)) (ih fun y hy => h y (by simp [hy]))

/-- In terms of the distance: `m` roundings change a number by at most `2 m u` of its value. -/
theorem near_abs (h0 : 0 ≤ u) (h1 : u ≤ 1) (hy : 0 ≤ y) (hm : m * u ≤ 1 / 2) (h : Near u m x y) : |x - y| ≤ 2 * m * u * y := by
  have hb : 1 - m * u ≤ (1 - u) ^ m := by
    have := one_add_mul_le_pow (a := -u) (by linarith) m
    have e : (1 + -u) = 1 - u := by ring
    rw [e] at this
    linarith
  have hx : 0 ≤ x := le_trans (mul_nonneg (pow_nonneg (by linarith) m) hy) h.1
  have hmu : 0 ≤ (m : ℚ) * u := by positivity
  rw [abs_le]
  constructor
  · have := le_trans (mul_le_mul_of_nonneg_right hb hy) h.1
    nlinarith
  · have h2 : (1 - m * u) * x ≤ y := le_trans (mul_le_mul_of_nonneg_right hb hx) h.2
    have h3 : x ≤ 2 * y := by nlinarith
    nlinarith

end

/-! ## Sums -/

theorem sumsTo_nonneg {R : Rounding} {l : List ℚ} {k : ℕ} {s : ℚ} (h : SumsTo R l k s) (hl : ∀ x ∈ l, 0 ≤ x) : 0 ≤ s := by
  induction h with
  | nil => exact le_refl _
  | one x => exact hl x (by simp)
  | add _ _ ih ih' =>
    exact R.fl_nonneg (add_nonneg (ih fun x hx => hl x (by simp [hx])) (ih' fun x hx => hl x (by simp [hx])))

/-- A sum of non-negative numbers formed with `k` rounded additions is the exact sum up to `k`
roundings, whatever the order of the additions. -/
theorem sumsTo_near {R : Rounding} {l : List ℚ} {k : ℕ} {s : ℚ} (h : SumsTo R l k s) (hl : ∀ x ∈ l, 0 ≤ x) :
    Near R.u k s l.sum := by
  have h0 := R.nonneg
  have h1 := R.u_lt.le
  induction h with
  | nil => simpa using near_refl R.u 0
  | one x => simpa using near_refl R.u x
  | @add l l' k k' s s' hs hs' ih ih' =>
    have hp : ∀ x ∈ l, 0 ≤ x := fun x hx => hl x (by simp [hx])
    have hp' : ∀ x ∈ l', 0 ≤ x := fun x hx => hl x (by simp [hx])
    have n := sumsTo_nonneg hs hp
    have n' := sumsTo_nonneg hs' hp'
    have q := List.sum_nonneg hp
    have q' := List.sum_nonneg hp'
    rw [List.sum_append]
    have a := near_mono h0 h1 n q (Nat.le_add_right k k') (ih hp)
    have a' := near_mono h0 h1 n' q' (Nat.le_add_left k' k) (ih' hp')
    have := near_trans h1 (R.near (add_nonneg n n')) (near_add a a')
    rwa [Nat.add_comm 1] at this

/-! ## Double precision -/

theorem nearestEven_floor (y : ℚ) : (⌊y⌋ : ℤ) ≤ nearestEven y ∧ nearestEven y ≤ ⌊y⌋ + 1 := by
  unfold nearestEven
  split_ifs <;> omega

theorem nearestEven_close (y : ℚ) : |(nearestEven y : ℚ) - y| ≤ 1 / 2 := by
  have h1 := Int.floor_le y
  have h2 := Int.lt_floor_add_one y
  unfold nearestEven
  rw [abs_le]
  split_ifs with a b c
  · constructor <;> linarith
  · push_cast; constructor <;> linarith
  · constructor <;> linarith
  · push_cast; constructor <;> linarith

theorem nearestEven_int (n : ℤ) : nearestEven (n : ℚ) = n := by
  unfold nearestEven
  simp

theorem nearestEven_mono : Monotone nearestEven := by
  intro x y h
  have hf : ⌊x⌋ ≤ ⌊y⌋ := Int.floor_mono h
  rcases eq_or_lt_of_le hf with e | lt
  · unfold nearestEven
    rw [e]
    split_ifs <;> first | omega | linarith
  · have := (nearestEven_floor x).2
    have := (nearestEven_floor y).1
    omega

theorem ulp_pos (x : ℚ) : 0 < ulp x := by
  unfold ulp
  exact zpow_pos (by norm_num) _

theorem scaled_ge {x : ℚ} (h : 0 < x) : (2 ^ 52 : ℚ) ≤ x / ulp x := by
  rw [le_div_iff₀ (ulp_pos x)]
  unfold ulp
  rw [zpow_sub₀ (by norm_num)]
  have := Int.zpow_log_le_self (b := 2) (by norm_num) h
  have e : (2 : ℚ) ^ 52 * (2 ^ Int.log 2 x / 2 ^ (52 : ℤ)) = 2 ^ Int.log 2 x := by
    rw [show ((2 : ℚ) ^ (52 : ℤ)) = 2 ^ 52 by norm_num]
    field_simp
  rw [e]
  exact_mod_cast this

theorem scaled_lt {x : ℚ} (_h : 0 < x) : x / ulp x < (2 ^ 53 : ℚ) := by
  rw [div_lt_iff₀ (ulp_pos x)]
  unfold ulp
  have := Int.lt_zpow_succ_log_self (b := 2) (by norm_num) x
  rw [zpow_sub₀ (by norm_num)]
  have e : (2 : ℚ) ^ 53 * (2 ^ Int.log 2 x / 2 ^ (52 : ℤ)) = 2 ^ (Int.log 2 x + 1) := by
    rw [zpow_add₀ (by norm_num), show ((2 : ℚ) ^ (52 : ℤ)) = 2 ^ 52 by norm_num]
    field_simp
  rw [e]
  exact_mod_cast this

theorem roundPos_close {x : ℚ} (h : 0 < x) : |roundPos x - x| ≤ 1 / 2 ^ 53 * x := by
  have hu := ulp_pos x
  have e : roundPos x - x = (nearestEven (x / ulp x) - x / ulp x) * ulp x := by
    unfold roundPos
    field_simp
  rw [e, abs_mul, abs_of_pos hu]
  have h1 := nearestEven_close (x / ulp x)
  have h2 := scaled_ge h
  rw [le_div_iff₀ hu] at h2
  calc |(nearestEven (x / ulp x) : ℚ) - x / ulp x| * ulp x ≤ 1 / 2 * ulp x := mul_le_mul_of_nonneg_right h1 hu.le
    _ = 1 / 2 ^ 53 * (2 ^ 52 * ulp x) := by ring
    _ ≤ 1 / 2 ^ 53 * x := mul_le_mul_of_nonneg_left h2 (by norm_num)

theorem roundPos_nonneg {x : ℚ} (h : 0 < x) : 0 ≤ roundPos x := by
  have := (abs_le.1 (roundPos_close h)).1
  have : 1 / 2 ^ 53 * x ≤ x := by nlinarith [h]
  linarith

theorem roundPos_le_pow {x : ℚ} (h : 0 < x) : roundPos x ≤ 2 ^ (Int.log 2 x + 1) := by
  have h1 : nearestEven (x / ulp x) ≤ 2 ^ 53 := by
    have := nearestEven_mono (scaled_lt h).le
    have e : nearestEven (2 ^ 53 : ℚ) = 2 ^ 53 := by
      have := nearestEven_int (2 ^ 53)
      exact_mod_cast this
    rwa [e] at this
  have h2 : (nearestEven (x / ulp x) : ℚ) ≤ 2 ^ 53 := by exact_mod_cast h1
  unfold roundPos
  calc (nearestEven (x / ulp x) : ℚ) * ulp x ≤ 2 ^ 53 * ulp x := mul_le_mul_of_nonneg_right h2 (ulp_pos x).le
    _ = 2 ^ (Int.log 2 x + 1) := by
      unfold ulp
      rw [zpow_sub₀ (by norm_num), zpow_add₀ (by norm_num), show ((2 : ℚ) ^ (52 : ℤ)) = 2 ^ 52 by norm_num]
      field_simp

theorem pow_le_roundPos {x : ℚ} (h : 0 < x) : 2 ^ (Int.log 2 x) ≤ roundPos x := by
  have h1 : (2 ^ 52 : ℤ) ≤ nearestEven (x / ulp x) := by
    have := nearestEven_mono (scaled_ge h)
    have e : nearestEven (2 ^ 52 : ℚ) = 2 ^ 52 := by
      have := nearestEven_int (2 ^ 52)
      exact_mod_cast this
    rwa [e] at this
  have h2 : (2 ^ 52 : ℚ) ≤ nearestEven (x / ulp x) := by exact_mod_cast h1
  unfold roundPos
  calc (2 : ℚ) ^ (Int.log 2 x) = 2 ^ 52 * ulp x := by
        unfold ulp
        rw [zpow_sub₀ (by norm_num), show ((2 : ℚ) ^ (52 : ℤ)) = 2 ^ 52 by norm_num]
        field_simp
    _ ≤ (nearestEven (x / ulp x) : ℚ) * ulp x := mul_le_mul_of_nonneg_right h2 (ulp_pos x).le

theorem roundPos_mono {x y : ℚ} (hx : 0 < x) (h : x ≤ y) : roundPos x ≤ roundPos y := by
  have hy : 0 < y := lt_of_lt_of_le hx h
  rcases eq_or_lt_of_le (Int.log_mono_right (b := 2) hx h) with e | lt
  · have eu : ulp x = ulp y := by unfold ulp; rw [e]
    unfold roundPos
    rw [eu]
    have : nearestEven (x / ulp y) ≤ nearestEven (y / ulp y) :=
      nearestEven_mono (div_le_div_of_nonneg_right h (ulp_pos y).le)
    exact mul_le_mul_of_nonneg_right (by exact_mod_cast this) (ulp_pos y).le
  · refine le_trans (roundPos_le_pow hx) (le_trans ?_ (pow_le_roundPos hy))
    exact zpow_le_zpow_right₀ (by norm_num) (by omega)

theorem roundDouble_odd (x : ℚ) : roundDouble (-x) = - roundDouble x := by
  unfold roundDouble
  rcases lt_trichotomy x 0 with h | h | h
  · rw [if_pos (by linarith), if_neg (by linarith), if_pos h]; simp
  · subst h; simp
  · rw [if_neg (by linarith), if_pos (by linarith), if_pos h]; simp

theorem roundDouble_mono : Monotone roundDouble := by
  intro x y h
  have pos : ∀ z : ℚ, 0 ≤ z → 0 ≤ roundDouble z := by
    intro z hz
    unfold roundDouble
    rcases eq_or_lt_of_le hz with e | l
    · subst e; simp
    · rw [if_pos l]; exact roundPos_nonneg l
  have posmono : ∀ a b : ℚ, 0 < a → a ≤ b → roundDouble a ≤ roundDouble b := by
    intro a b ha hab
    unfold roundDouble
    rw [if_pos ha, if_pos (lt_of_lt_of_le ha hab)]
    exact roundPos_mono ha hab
  rcases lt_or_ge 0 x with hx | hx
  · exact posmono x y hx h
  · rcases lt_or_ge y 0 with hy | hy
    · have := posmono (-y) (-x) (by linarith) (by linarith)
      rw [roundDouble_odd, roundDouble_odd] at this
      linarith
    · have h1 := pos y hy
      have h2 := pos (-x) (by linarith)
      rw [roundDouble_odd] at h2
      linarith

theorem roundDouble_close (x : ℚ) : |roundDouble x - x| ≤ 1 / 2 ^ 53 * |x| := by
  unfold roundDouble
  rcases lt_trichotomy x 0 with h | h | h
  · rw [if_neg (by linarith), if_pos h, abs_of_neg h]
    have := roundPos_close (x := -x) (by linarith)
    have e : - roundPos (-x) - x = -(roundPos (-x) - (-x)) := by ring
    rw [e, abs_neg]
    exact this
  · subst h; simp
  · rw [if_pos h, abs_of_pos h]
    exact roundPos_close h

/-- How to compute a rounded positive number: find its binade `k` and the nearest integer `n`. -/
theorem roundDouble_of {x : ℚ} (k : ℤ) (n : ℤ) (h1 : (2 : ℚ) ^ k ≤ x) (h2 : x < (2 : ℚ) ^ (k + 1))
    (h3 : |(n : ℚ) - x / 2 ^ (k - 52)| < 1 / 2) : roundDouble x = n * 2 ^ (k - 52) := by
  have hx : 0 < x := lt_of_lt_of_le (zpow_pos (by norm_num) k) h1
  have hl : Int.log 2 x = k := by
    have a : k ≤ Int.log 2 x := (Int.zpow_le_iff_le_log (b := 2) (by norm_num) hx).1 (by exact_mod_cast h1)
    have b : Int.log 2 x < k + 1 := (Int.lt_zpow_iff_log_lt (b := 2) (by norm_num) hx).1 (by exact_mod_cast h2)
    omega
  have hu : ulp x = 2 ^ (k - 52) := by unfold ulp; rw [hl]
  have hn : nearestEven (x / 2 ^ (k - 52)) = n := by
    have c := nearestEven_close (x / 2 ^ (k - 52))
    generalize x / 2 ^ (k - 52) = y at *
    have c1 := abs_le.1 c
    have c2 := abs_lt.1 h3
    have d1 : ((nearestEven y : ℤ) : ℚ) < n + 1 := by linarith
    have d2 : (n : ℚ) < nearestEven y + 1 := by linarith
    have d3 : nearestEven y < n + 1 := by exact_mod_cast d1
    have d4 : n < nearestEven y + 1 := by exact_mod_cast d2
    omega
  unfold roundDouble roundPos
  rw [if_pos hx, hu, hn]

/-- IEEE 754 double precision arithmetic, round to nearest with ties to even, while results stay
within the range of the exponent. -/
def double : Rounding where
  fl := roundDouble
  u := 1 / 2 ^ 53
  nonneg := by norm_num
  small := le_refl _
  close := roundDouble_close
  mono := roundDouble_mono
  odd := roundDouble_odd

/-- Exact arithmetic is the rounding that does nothing. -/
def exact : Rounding where
  fl := id
  u := 0
  nonneg := le_refl _
  small := by norm_num
  close := by intro x; simp
  mono := monotone_id
  odd := by intro x; rfl

end Ocelot.Spec
