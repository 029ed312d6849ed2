import Verif.Props.RoundedOrder

/-!
# Property C123: no share is more than the whole, also with rounding
-/

namespace Ocelot
open Spec

/-- Rounding a number twice is the same as rounding it once, and one is a number of the format. -/
structure Spec.Rounding.Idempotent (R : Rounding) : Prop where
  twice : ∀ x, R.fl (R.fl x) = R.fl x
  one : R.fl 1 = 1

theorem roundDouble_int {k n : ℤ} (h1 : (2 : ℤ) ^ 52 ≤ n) (h2 : n < 2 ^ 53) :
    roundDouble (n * 2 ^ (k - 52)) = n * 2 ^ (k - 52) := by
  have hp : (0 : ℚ) < 2 ^ (k - 52) := zpow_pos (by norm_num) _
  have e1 : (2 : ℚ) ^ k = 2 ^ 52 * 2 ^ (k - 52) := by
    rw [← zpow_natCast, ← zpow_add₀ (by norm_num)]; congr 1; push_cast; ring
  have e2 : (2 : ℚ) ^ (k + 1) = 2 ^ 53 * 2 ^ (k - 52) := by
    rw [← zpow_natCast, ← zpow_add₀ (by norm_num)]; congr 1; push_cast; ring
  have c1 : (2 : ℚ) ^ 52 ≤ n := by exact_mod_cast h1
  have c2 : (n : ℚ) < 2 ^ 53 := by exact_mod_cast h2
  refine roundDouble_of k n ?_ ?_ ?_
  · rw [e1]; exact mul_le_mul_of_nonneg_right c1 hp.le
  · rw [e2]; exact mul_lt_mul_of_pos_right c2 hp
  · rw [mul_div_assoc, div_self hp.ne', mul_one, sub_self]; norm_num

theorem roundPos_twice {x : ℚ} (hx : 0 < x) : roundDouble (roundPos x) = roundPos x := by
  have hp : (0 : ℚ) < 2 ^ (Int.log 2 x - 52) := zpow_pos (by norm_num) _
  have l1 : (2 : ℚ) ^ Int.log 2 x ≤ x := by exact_mod_cast Int.zpow_log_le_self (b := 2) (by norm_num) hx
  have l2 : x < (2 : ℚ) ^ (Int.log 2 x + 1) := by exact_mod_cast Int.lt_zpow_succ_log_self (b := 2) (by norm_num) x
  have y1 : (2 : ℚ) ^ 52 ≤ x / ulp x := by
    unfold ulp
    rw [le_div_iff₀ hp, ← zpow_natCast, ← zpow_add₀ (by norm_num), show ((52 : ℕ) : ℤ) + (Int.log 2 x - 52) = Int.log 2 x by push_cast; ring]
    exact l1
  have y2 : x / ulp x < (2 : ℚ) ^ 53 := by
    unfold ulp
    rw [div_lt_iff₀ hp, ← zpow_natCast, ← zpow_add₀ (by norm_num), show ((53 : ℕ) : ℤ) + (Int.log 2 x - 52) = Int.log 2 x + 1 by push_cast; ring]
    exact l2
  have f1 : (2 : ℤ) ^ 52 ≤ ⌊x / ulp x⌋ := Int.le_floor.2 (by exact_mod_cast y1)
  have f2 : ⌊x / ulp x⌋ < (2 : ℤ) ^ 53 := Int.floor_lt.2 (by exact_mod_cast y2)
  have n1 : nearestEven (x / ulp x) = ⌊x / ulp x⌋ ∨ nearestEven (x / ulp x) = ⌊x / ulp x⌋ + 1 := by
    unfold nearestEven
    split
    · exact .inl rfl
    · split
      · exact .inr rfl
      · split
        · exact .inl rfl
        · exact .inr rfl
  unfold roundPos
  generalize nearestEven (x / ulp x) = n at n1
  by_cases hn : n < 2 ^ 53
  · exact roundDouble_int (k := Int.log 2 x) (by omega) hn
  · have hn' : n = 2 ^ 53 := by omega
    have e : (n : ℚ) * ulp x = ((2 ^ 52 : ℤ) : ℚ) * 2 ^ (Int.log 2 x + 1 - 52) := by
      unfold ulp
      rw [hn', show Int.log 2 x + 1 - 52 = (Int.log 2 x - 52) + 1 by ring, zpow_add₀ (by norm_num)]
      push_cast
      ring
    rw [e]
    exact roundDouble_int (by norm_num) (by norm_num)

/-- Double precision has both properties. -/
theorem double_idempotent : Spec.double.Idempotent where
  twice x := by
    rw [show Spec.double.fl = roundDouble from rfl]
    rcases lt_trichotomy x 0 with h | rfl | h
    · have e : roundDouble x = - roundPos (-x) := by unfold roundDouble; rw [if_neg (not_lt.2 h.le), if_pos h]
      rw [e, show roundDouble (-roundPos (-x)) = - roundDouble (roundPos (-x)) from Spec.double.odd _, roundPos_twice (neg_pos.2 h)]
    · have e : roundDouble 0 = 0 := Spec.double.zero
      rw [e, e]
    · have e : roundDouble x = roundPos x := by unfold roundDouble; rw [if_pos h]
      rw [e, roundPos_twice h]
  one := by
    rw [show Spec.double.fl = roundDouble from rfl]
    have := roundDouble_int (k := 0) (n := 2 ^ 52) (by norm_num) (by norm_num)
    norm_num at this
    exact this

/-- Python's sum of numbers of the format, none of them negative, is at least each of them. -/
theorem le_pySum {R : Rounding} (hR : R.Idempotent) (l : List ℚ) (h0 : ∀ x ∈ l, 0 ≤ x) (hfl : ∀ x ∈ l, R.fl x = x) :
    ∀ x ∈ l, x ≤ pySum R l := by
  have key : ∀ (l : List ℚ) (s : ℚ), 0 ≤ s → R.fl s = s → (∀ x ∈ l, 0 ≤ x) → (∀ x ∈ l, R.fl x = x) →
      s ≤ l.foldl (fun s x => R.fl (s + x)) s ∧ ∀ x ∈ l, x ≤ l.foldl (fun s x => R.fl (s + x)) s := by
    intro l
    induction l with
    | nil => intro s _ _ _ _; exact ⟨le_refl _, by simp⟩
    | cons y l ih =>
      intro s s0 sf l0 lf
      have y0 := l0 y (by simp)
      obtain ⟨i1, i2⟩ := ih (R.fl (s + y)) (R.fl_nonneg (add_nonneg s0 y0)) (hR.twice _) (fun x hx => l0 x (by simp [hx]))
        (fun x hx => lf x (by simp [hx]))
      have a1 : s ≤ R.fl (s + y) := by
        have := R.mono (show s ≤ s + y by linarith)
        rwa [sf] at this
      have a2 : y ≤ R.fl (s + y) := by
        have := R.mono (show y ≤ s + y by linarith)
        rwa [lf y (by simp)] at this
      rw [List.foldl_cons]
      refine ⟨le_trans a1 i1, fun x hx => ?_⟩
      rcases List.mem_cons.1 hx with rfl | hx
      · exact le_trans a2 i1
      · exact i2 x hx
  exact (key l 0 le_rfl R.zero h0 hfl).2

/-- C123: also in floating point arithmetic, and without any tolerance, no supplier of a market delivers more than the
market's output, if the output and the volumes are floating point numbers. -/
theorem C123_at_most (R : Rounding) (hR : R.Idempotent) (ds out : Dataset) (sup : List Exchange) (e : Exchange)
    (h : allocateSuppliersR R ds = .ok out) (he : refs ds = [e]) (hs : ds.suppliers = some sup) (hfl : R.fl e.amount = e.amount)
    (hvol : ∀ s ∈ sup, ∃ p, s.pv = some p ∧ 0 ≤ p.amount ∧ R.fl p.amount = p.amount)
    (hsome : ∃ s ∈ sup, ∃ p, s.pv = some p ∧ p.amount ≠ 0) :
    ∃ new, out = { ds with exchanges := ds.exchanges ++ new } ∧ ∀ x ∈ new, |x.amount| ≤ |e.amount| := by
  have hvol' : ∀ s ∈ sup, ∃ p, s.pv = some p ∧ 0 ≤ p.amount := fun s hs => by
    obtain ⟨p, hp, h0, -⟩ := hvol s hs
    exact ⟨p, hp, h0⟩
  obtain ⟨hmap, -, Tpos, -⟩ := volumes_ok R sup hvol' hsome
  have hle : ∀ s ∈ sup, statedVolume s ≤ pySum R (sup.map statedVolume) := by
    intro s hs
    refine le_pySum hR _ ?_ ?_ _ (List.mem_map.2 ⟨s, hs, rfl⟩)
    all_goals
      intro x hx
      obtain ⟨t, ht, rfl⟩ := List.mem_map.1 hx
      obtain ⟨p, hp, h0, hf⟩ := hvol t ht
      simp [statedVolume, hp, h0, hf]
  unfold allocateSuppliersR at h
  rw [getSingle_ok.mpr he, hs] at h
  simp only [ebind_ok, getKey_some, hmap, Tpos.ne', if_false, epure] at h
  obtain ⟨new, hnew, h2⟩ := bind_eq_ok.mp h
  refine ⟨new, by rw [← Except.ok.inj h2, hs], ?_⟩
  have hall : List.Forall₂ (fun _ x : Exchange => |x.amount| ≤ |e.amount|) (sup.filter fun s => decide (statedVolume s ≠ 0)) new := by
    refine flatMapE_shares sup new (fun s hs a ha => ?_) hnew
    obtain ⟨p, hp, h0⟩ := hvol' s hs
    have hv : p.amount = statedVolume s := by simp [statedVolume, hp]
    rw [hv] at h0
    unfold marketInputR at ha
    rw [hp] at ha
    simp only [getKey_some, ebind_ok, epure, hv] at ha
    by_cases hz : R.fl (statedVolume s / pySum R (sup.map statedVolume)) = 0
    · rw [if_pos hz] at ha
      cases ha
      exact .inl ⟨(div_eq_zero_iff.1 (R.fl_eq_zero.1 hz)).resolve_right Tpos.ne', rfl⟩
    · rw [if_neg hz] at ha
      obtain ⟨c, hc, ha⟩ := bind_eq_ok.mp ha
      obtain ⟨c', -, ha⟩ := bind_eq_ok.mp ha
      cases ha
      refine .inr ⟨fun h1 => hz (by rw [h1, zero_div]; exact R.fl_eq_zero.2 rfl), _, rfl, ?_⟩
      have q1 : R.fl (statedVolume s / pySum R (sup.map statedVolume)) ≤ 1 := by
        have := R.mono ((div_le_one Tpos).2 (hle s hs))
        rwa [hR.one] at this
      rw [R.abs_fl, abs_mul, abs_of_nonneg (R.fl_nonneg (div_nonneg h0 Tpos.le))]
      have := R.mono (mul_le_of_le_one_left (abs_nonneg e.amount) q1)
      rwa [← R.abs_fl e.amount, hfl] at this
  intro x hx
  obtain ⟨i, hi, rfl⟩ := List.getElem_of_mem hx
  exact (List.forall₂_iff_get.1 hall).2 i (by rw [hall.length_eq]; exact hi) hi

/-- A market for one unit, with one supplier of one unit and one without volume. -/
def wholeMarket : Dataset :=
  { name := "market for steel", type := .market, location := "GLO",
    exchanges := [{ name := "steel", type := .referenceProduct, amount := 1 }],
    suppliers := some [{ name := "steel", type := .referenceProduct, amount := 1, code := some "a", location := some "CH", pv := some { amount := 1 } },
      { name := "steel", type := .referenceProduct, amount := 1, code := some "b", location := some "FR", pv := some { amount := 0 } }] }

/-- The shares of this market are computed. -/
theorem wholeMarket_ok : ∃ out, allocateSuppliersR Spec.double wholeMarket = .ok out := by
  unfold allocateSuppliersR
  rw [show getSingleReferenceProduct wholeMarket = .ok { name := "steel", type := .referenceProduct, amount := 1 } from rfl]
  simp only [wholeMarket, ebind_ok, getKey_some, mapE, entryVolume, epure]
  generalize pySum Spec.double _ = T
  simp only [flatMapE, marketInputR, getKey_some, ebind_ok, epure]
  repeat' first | exact ⟨_, rfl⟩ | split

/-- The hypotheses hold for it in double precision. -/
example (out : Dataset) (h : allocateSuppliersR Spec.double wholeMarket = .ok out) :
    ∃ new, out.exchanges = wholeMarket.exchanges ++ new ∧ ∀ x ∈ new, |x.amount| ≤ 1 := by
  obtain ⟨new, h1, h2⟩ := C123_at_most Spec.double double_idempotent wholeMarket out _ _ h rfl rfl double_idempotent.one
    (by
      intro s hs
      simp only [List.mem_cons, List.not_mem_nil, or_false] at hs
      rcases hs with rfl | rfl
      · exact ⟨_, rfl, by norm_num, double_idempotent.one⟩
      · exact ⟨_, rfl, by norm_num, Spec.double.zero⟩)
    ⟨_, List.mem_cons_self, _, rfl, by norm_num⟩
  exact ⟨new, by rw [h1], fun x hx => by simpa using h2 x hx⟩

end Ocelot
