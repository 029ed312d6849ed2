import Mathlib.Algebra.Order.Field.Rat
import Mathlib.Algebra.BigOperators.Group.List.Basic
import Mathlib.Data.Rat.Floor
import Mathlib.Data.Int.Log
import Mathlib.Algebra.Order.Floor.Ring

/-!
# Rounding

Vocabulary for statements about floating point results.  Independent of the model.
-/

namespace Ocelot.Spec

/-- A way of rounding the exact result of one arithmetic operation, as in IEEE 754 double precision
with round-to-nearest: the relative error is at most `u ≤ 2⁻⁵³`, larger numbers are not rounded to
smaller ones, and rounding commutes with the change of sign.  Overflow and underflow are not
represented (the exponent is unbounded). -/
structure Rounding where
  fl : ℚ → ℚ
  u : ℚ
  nonneg : 0 ≤ u
  small : u ≤ 1 / 2 ^ 53
  close : ∀ x, |fl x - x| ≤ u * |x|
  mono : Monotone fl
  odd : ∀ x, fl (-x) = - fl x

/-- Two numbers differ by at most `m` roundings: each is at least `(1 - u) ^ m` times the other. -/
def Near (u : ℚ) (m : ℕ) (x y : ℚ) : Prop := (1 - u) ^ m * y ≤ x ∧ (1 - u) ^ m * x ≤ y

/-- `SumsTo R l k s`: adding up the numbers of `l`, in some order of the additions and with every
addition rounded, can give `s` after `k` additions.  Covers Python's `sum` (from the left, beginning
with 0), the blocked summation of numpy and pandas, and any other bracketing. -/
inductive SumsTo (R : Rounding) : List ℚ → ℕ → ℚ → Prop
  | nil : SumsTo R [] 0 0
  | one (x : ℚ) : SumsTo R [x] 0 x
  | add {l l' : List ℚ} {k k' : ℕ} {s s' : ℚ} (h : SumsTo R l k s) (h' : SumsTo R l' k' s') :
      SumsTo R (l ++ l') (k + k' + 1) (R.fl (s + s'))

/-! ## Double precision -/

/-- The nearest integer, ties to the even one. -/
def nearestEven (y : ℚ) : ℤ :=
  if y - ⌊y⌋ < 1 / 2 then ⌊y⌋
  else if 1 / 2 < y - ⌊y⌋ then ⌊y⌋ + 1
  else if Even ⌊y⌋ then ⌊y⌋ else ⌊y⌋ + 1

/-- The distance between neighbouring numbers with 53 significant bits around `x > 0`. -/
def ulp (x : ℚ) : ℚ := 2 ^ (Int.log 2 x - 52)

/-- Rounding of a positive number to 53 significant bits. -/
def roundPos (x : ℚ) : ℚ := nearestEven (x / ulp x) * ulp x

/-- Rounding to 53 significant bits, to nearest, ties to even (IEEE 754 binary64 without its exponent
range). -/
def roundDouble (x : ℚ) : ℚ :=
  if 0 < x then roundPos x else if x < 0 then - roundPos (-x) else 0

end Ocelot.Spec
