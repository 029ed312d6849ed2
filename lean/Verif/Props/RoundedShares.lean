import Verif.Props.RoundedLinking

/-!
# Property C123, entry by entry: every single share is accurate, not only their sum
-/

namespace Ocelot
open Spec

/-- The production volume stated for a supplier, zero if there is none. -/
def Spec.statedVolume (s : Exchange) : ℚ := (s.pv.map (·.amount)).getD 0

/-- `x` is the part of `a` that belongs to the supplier `s` with volume share `v s / total`, up to a relative error `ε`. -/
def Spec.FairShare (total a ε : ℚ) (s x : Exchange) : Prop :=
  x.type = .fromTechnosphere ∧ x.code = s.code ∧
    |x.amount - statedVolume s / total * a| ≤ ε * |statedVolume s / total * a|

/-- Up to the sign of `a`, absolute values that are near give numbers that are close. -/
theorem close_of_near {u : ℚ} {k : ℕ} {x q a : ℚ} (u0 : 0 ≤ u) (u1 : u ≤ 1) (q0 : 0 ≤ q) (hk : k * u ≤ 1 / 2)
    (hs : x = if a < 0 then -|x| else |x|) (h : Near u k |x| (q * |a|)) : |x - q * a| ≤ 2 * k * u * |q * a| := by
  have := near_abs u0 u1 (mul_nonneg q0 (abs_nonneg a)) hk h
  rw [abs_mul, abs_of_nonneg q0]
  by_cases ha : a < 0
  · rw [if_pos ha] at hs
    have e1 : x - q * a = -(|x| - q * |a|) := by rw [abs_of_neg ha]; linarith
    rw [e1, abs_neg]
    exact this
  · rw [if_neg ha] at hs
    have e1 : x - q * a = |x| - q * |a| := by rw [abs_of_nonneg (not_lt.1 ha)]; linarith
    rw [e1]
    exact this

theorem sign_of_nonneg_mul (R : Rounding) {f a : ℚ} (hf : 0 ≤ f) :
    R.fl (f * a) = if a < 0 then -|R.fl (f * a)| else |R.fl (f * a)| := by
  split
  · next h => rw [abs_of_nonpos (R.fl_nonpos (mul_nonpos_of_nonneg_of_nonpos hf h.le))]; ring
  · next h => rw [abs_of_nonneg (R.fl_nonneg (mul_nonneg hf (not_lt.1 h)))]

/-- A rounded quotient by a total that is itself the result of `n` roundings, times a number. -/
theorem share_close (R : Rounding) {n : ℕ} {T S v a x : ℚ} (hT : Near R.u n T S) (Tpos : 0 < T) (Spos : 0 < S) (hv : 0 ≤ v)
    (hn : ((n + 2 : ℕ) : ℚ) * R.u ≤ 1 / 2) (hx : x = R.fl (R.fl (v / T) * a) ∨ R.fl (v / T) = 1 ∧ x = a) :
    |x - v / S * a| ≤ 2 * (n + 2 : ℕ) * R.u * |v / S * a| := by
  have u0 := R.nonneg
  have u1 := R.u_lt.le
  have q0 : 0 ≤ v / T := div_nonneg hv Tpos.le
  have s0 : 0 ≤ v / S := div_nonneg hv Spos.le
  have qf := R.fl_nonneg q0
  have a0 := abs_nonneg a
  have d : Near R.u n (v / T) (v / S) := by
    have := near_div (m := 0) u1 hv hv Tpos Spos (near_refl R.u v) hT
    rwa [Nat.zero_add] at this
  have n2 : Near R.u (1 + n) (R.fl (v / T) * |a|) (v / S * |a|) :=
    near_mul (k := 0) u1 qf s0 a0 a0 (near_trans u1 (R.near q0) d) (near_refl R.u _)
  rcases hx with rfl | ⟨h1, rfl⟩
  · refine close_of_near u0 u1 s0 hn (sign_of_nonneg_mul R qf) ?_
    rw [R.abs_fl, abs_mul, abs_of_nonneg qf]
    have := near_trans u1 (R.near (mul_nonneg qf a0)) n2
    rwa [show 1 + (1 + n) = n + 2 by omega] at this
  · refine close_of_near u0 u1 s0 hn ?_ ?_
    · split
      · next h => rw [abs_of_neg h]; ring
      · next h => rw [abs_of_nonneg (not_lt.1 h)]
    · rw [h1, one_mul] at n2
      exact near_mono u0 u1 a0 (mul_nonneg s0 a0) (by omega) n2

/-- What is known of the volumes: the total that is computed is positive and near the exact one. -/
theorem volumes_ok (R : Rounding) (sup : List Exchange) (hvol : ∀ s ∈ sup, ∃ p, s.pv = some p ∧ 0 ≤ p.amount)
    (hsome : ∃ s ∈ sup, ∃ p, s.pv = some p ∧ p.amount ≠ 0) :
    mapE entryVolume sup = .ok (sup.map statedVolume) ∧ 0 < (sup.map statedVolume).sum ∧
      0 < pySum R (sup.map statedVolume) ∧ Near R.u sup.length (pySum R (sup.map statedVolume)) (sup.map statedVolume).sum := by
  have hmap : mapE entryVolume sup = .ok (sup.map statedVolume) := by
    rw [mapE_congr (g := fun s => .ok (statedVolume s))]
    · exact mapE_pure statedVolume sup
    · intro s hs
      obtain ⟨p, hp, -⟩ := hvol s hs
      simp [entryVolume, statedVolume, hp]
  have vpos : ∀ x ∈ sup.map statedVolume, 0 ≤ x := by
    intro x hx
    obtain ⟨s, hs, rfl⟩ := List.mem_map.1 hx
    obtain ⟨p, hp, h0⟩ := hvol s hs
    simpa [statedVolume, hp] using h0
  have hT := sumsTo_near (pySum_sumsTo R (sup.map statedVolume)) vpos
  rw [List.length_map] at hT
  have Spos : 0 < (sup.map statedVolume).sum := by
    obtain ⟨s, hs, p, hp, hne⟩ := hsome
    have hm : statedVolume s ∈ sup.map statedVolume := List.mem_map.2 ⟨s, hs, rfl⟩
    have hne' : statedVolume s ≠ 0 := by simpa [statedVolume, hp] using hne
    exact lt_of_lt_of_le (lt_of_le_of_ne (vpos _ hm) hne'.symm) (List.single_le_sum vpos _ hm)
  exact ⟨hmap, Spos, near_pos R.u_lt hT Spos, hT⟩

/-- A loop that makes at most one entry per supplier, and none exactly for those without volume. -/
theorem flatMapE_shares {g : Exchange → Except Err (List Exchange)} {P : Exchange → Exchange → Prop} : ∀ (l new : List Exchange),
    (∀ s ∈ l, ∀ a, g s = .ok a → (statedVolume s = 0 ∧ a = []) ∨ (statedVolume s ≠ 0 ∧ ∃ x, a = [x] ∧ P s x)) →
    flatMapE g l = .ok new → List.Forall₂ P (l.filter fun s => decide (statedVolume s ≠ 0)) new
  | [], new, _, h => by
    cases h
    exact .nil
  | s :: l, new, hg, h => by
    unfold flatMapE at h
    obtain ⟨a, ha, h⟩ := bind_eq_ok.mp h
    obtain ⟨b, hb, h⟩ := bind_eq_ok.mp h
    cases h
    have ih := flatMapE_shares l b (fun t ht => hg t (by simp [ht])) hb
    rcases hg s (by simp) a ha with ⟨h0, rfl⟩ | ⟨h0, x, rfl, hx⟩
    · simpa [h0] using ih
    · rw [List.filter_cons_of_pos (by simpa using h0)]
      exact .cons hx ih

/-- C123: a market gets one input per supplier with volume, in order, and each of them is that supplier's exact share of
the market's output within a relative `2 (n + 2) u`. -/
theorem C123_each (R : Rounding) (ds out : Dataset) (sup : List Exchange) (e : Exchange)
    (h : allocateSuppliersR R ds = .ok out) (he : refs ds = [e]) (hs : ds.suppliers = some sup)
    (hvol : ∀ s ∈ sup, ∃ p, s.pv = some p ∧ 0 ≤ p.amount) (hsome : ∃ s ∈ sup, ∃ p, s.pv = some p ∧ p.amount ≠ 0)
    (hn : ((sup.length + 2 : ℕ) : ℚ) * R.u ≤ 1 / 2) :
    ∃ new, out = { ds with exchanges := ds.exchanges ++ new } ∧
      List.Forall₂ (fun s x => x.name = s.name ∧ x.unit = s.unit ∧
          FairShare (sup.map statedVolume).sum e.amount (2 * (sup.length + 2 : ℕ) * R.u) s x)
        (sup.filter fun s => decide (statedVolume s ≠ 0)) new := by
  obtain ⟨hmap, Spos, Tpos, hT⟩ := volumes_ok R sup hvol hsome
  unfold allocateSuppliersR at h
  rw [getSingle_ok.mpr he, hs] at h
  simp only [ebind_ok, getKey_some, hmap, Tpos.ne', if_false, epure] at h
  obtain ⟨new, hnew, h2⟩ := bind_eq_ok.mp h
  refine ⟨new, by rw [← Except.ok.inj h2, hs], flatMapE_shares sup new (fun s hs a ha => ?_) hnew⟩
  obtain ⟨p, hp, h0⟩ := hvol s hs
  have hv : p.amount = statedVolume s := by simp [statedVolume, hp]
  rw [hv] at h0
  unfold marketInputR at ha
  rw [hp] at ha
  simp only [getKey_some, ebind_ok, epure, hv] at ha
  by_cases hz : R.fl (statedVolume s / pySum R (sup.map statedVolume)) = 0
  · rw [if_pos hz] at ha
    cases ha
    exact .inl ⟨(div_eq_zero_iff.1 (R.fl_eq_zero.1 hz)).resolve_right Tpos.ne', rfl⟩
  · rw [if_neg hz] at ha
    obtain ⟨c, hc, ha⟩ := bind_eq_ok.mp ha
    obtain ⟨c', -, ha⟩ := bind_eq_ok.mp ha
    cases ha
    have hcs : s.code = some c := by
      rcases hs : s.code with _ | d
      · rw [hs] at hc; cases hc
      · rw [hs] at hc; cases hc; rfl
    refine .inr ⟨fun h1 => hz (by rw [h1, zero_div]; exact R.fl_eq_zero.2 rfl), _, rfl, rfl, rfl, rfl, hcs.symm, ?_⟩
    exact share_close R hT Tpos Spos h0 hn (.inl rfl)

/-- C123: the same for an unlinked input of a consumer that is divided between markets. -/
theorem C123_consumers_each (R : Rounding) (M : MathEnv) (e : Exchange) (sup : List Exchange) (ex out : List (Option ℕ × Exchange))
    (h : splitInputR R M e sup ex = .ok out) (hcode : e.code = none)
    (hvol : ∀ s ∈ sup, ∃ p, s.pv = some p ∧ 0 ≤ p.amount) (hsome : ∃ s ∈ sup, ∃ p, s.pv = some p ∧ p.amount ≠ 0)
    (hn : ((sup.length + 2 : ℕ) : ℚ) * R.u ≤ 1 / 2) :
    ∃ new : List Exchange, out = ex.filter (fun p => decide (p.2 ≠ e)) ++ new.map (fun x => (none, x)) ∧
      List.Forall₂ (fun s x => x.name = e.name ∧ x.unit = e.unit ∧
          FairShare (sup.map statedVolume).sum e.amount (2 * (sup.length + 2 : ℕ) * R.u) s x)
        (sup.filter fun s => decide (statedVolume s ≠ 0)) new := by
  obtain ⟨hmap, Spos, Tpos, hT⟩ := volumes_ok R sup hvol hsome
  unfold splitInputR at h
  simp only [ebind_ok, hmap, Tpos.ne', if_false, epure] at h
  obtain ⟨new, hnew, h2⟩ := bind_eq_ok.mp h
  refine ⟨new, ?_, flatMapE_shares sup new (fun s hs a ha => ?_) hnew⟩
  · rw [← Except.ok.inj h2, List.filter_append]
    congr 1
    refine List.filter_eq_self.2 fun p hp => ?_
    obtain ⟨x, hx, rfl⟩ := List.mem_map.1 hp
    obtain ⟨-, -, s, -, hc, hn0⟩ := inputSharesR_shape sup new hnew x hx
    refine decide_eq_true fun hxe => ?_
    rw [← hc, show x.code = none by rw [show x = e from hxe]; exact hcode] at hn0
    exact hn0 rfl
  obtain ⟨p, hp, h0⟩ := hvol s hs
  have hv : p.amount = statedVolume s := by simp [statedVolume, hp]
  rw [hv] at h0
  unfold inputShareR at ha
  rw [hp] at ha
  simp only [getKey_some, ebind_ok, epure, hv] at ha
  by_cases hz : R.fl (statedVolume s / pySum R (sup.map statedVolume)) = 0
  · rw [if_pos hz] at ha
    cases ha
    exact .inl ⟨(div_eq_zero_iff.1 (R.fl_eq_zero.1 hz)).resolve_right Tpos.ne', rfl⟩
  · rw [if_neg hz] at ha
    obtain ⟨y, hy, ha⟩ := bind_eq_ok.mp ha
    obtain ⟨c, hc, ha⟩ := bind_eq_ok.mp ha
    obtain ⟨c', -, ha⟩ := bind_eq_ok.mp ha
    cases ha
    have hcs : s.code = some c := by
      rcases hs : s.code with _ | d
      · rw [hs] at hc; cases hc
      · rw [hs] at hc; cases hc; rfl
    have hyf : y.name = e.name ∧ y.unit = e.unit := by
      obtain ⟨o, -, h2⟩ := bind_eq_ok.mp hy
      cases h2
      exact ⟨rfl, rfl⟩
    refine .inr ⟨fun h1 => hz (by rw [h1, zero_div]; exact R.fl_eq_zero.2 rfl), _, rfl, hyf.1, hyf.2, rfl, hcs.symm, ?_⟩
    refine share_close R hT Tpos Spos h0 hn ?_
    by_cases h1 : R.fl (statedVolume s / pySum R (sup.map statedVolume)) = 1
    · rw [h1, scaleExchangeR_one] at hy
      cases hy
      exact .inr ⟨h1, rfl⟩
    · have := scaleExchangeR_frame h1 hy
      left
      rw [mul_comm]
      rw [this]

/-- The hypotheses of C123_each hold for the market of `Props/Rounded` in double precision: it gets two inputs, of three
quarters and of one quarter. -/
example : ∃ out x y, allocateSuppliersR Spec.double sharedMarket = .ok out ∧ out.exchanges = sharedMarket.exchanges ++ [x, y] ∧
    x.code = some "a" ∧ |x.amount - 3 / 4| ≤ 10 / 2 ^ 53 * (3 / 4) ∧ y.code = some "b" ∧ |y.amount - 1 / 4| ≤ 10 / 2 ^ 53 * (1 / 4) := by
  have hu : Spec.double.u = 1 / 2 ^ 53 := rfl
  have hvol : ∀ s ∈ sharedSuppliers, ∃ p, s.pv = some p ∧ 0 ≤ p.amount := by decide +kernel
  have hsome : ∃ s ∈ sharedSuppliers, ∃ p, s.pv = some p ∧ p.amount ≠ 0 := by decide +kernel
  obtain ⟨hmap, -, Tpos, -⟩ := volumes_ok Spec.double sharedSuppliers hvol hsome
  have hok : ∃ out, allocateSuppliersR Spec.double sharedMarket = .ok out := by
    unfold allocateSuppliersR
    rw [show getSingleReferenceProduct sharedMarket = .ok { name := "steel", type := .referenceProduct, amount := 1 } from rfl,
      show sharedMarket.suppliers = some sharedSuppliers from rfl]
    simp only [ebind_ok, getKey_some, hmap, Tpos.ne', if_false, epure]
    generalize pySum Spec.double _ = T
    simp only [sharedSuppliers, flatMapE, marketInputR, getKey_some, ebind_ok, epure]
    split <;> split <;> split <;> exact ⟨_, rfl⟩
  obtain ⟨out, hout⟩ := hok
  obtain ⟨new, h1, h2⟩ := C123_each Spec.double sharedMarket out _ _ hout rfl rfl hvol hsome (by
    rw [hu]; norm_num [show sharedSuppliers.length = 3 from rfl])
  rw [show (sharedSuppliers.filter fun s => decide (statedVolume s ≠ 0)) = [sharedSuppliers[0], sharedSuppliers[1]] by decide +kernel,
    show (sharedSuppliers.map statedVolume).sum = 4 / 3 by decide +kernel] at h2
  obtain _ | ⟨⟨-, -, -, c1, a1⟩, _ | ⟨⟨-, -, -, c2, a2⟩, _ | _⟩⟩ := h2
  refine ⟨out, _, _, hout, by rw [h1], c1, ?_, c2, ?_⟩
  · rw [show statedVolume sharedSuppliers[0] = 1 from rfl, show sharedSuppliers.length = 3 from rfl, hu] at a1
    norm_num [abs_of_pos] at a1 ⊢
    exact a1
  · rw [show statedVolume sharedSuppliers[1] = 1 / 3 from rfl, show sharedSuppliers.length = 3 from rfl, hu] at a2
    norm_num [abs_of_pos] at a2 ⊢
    exact a2

/-- So do those of C123_consumers_each for an input of seven units. -/
example (M : MathEnv) : ∃ out x y, splitInputR Spec.double M steelInput sharedSuppliers [(some 0, steelInput)] = .ok out ∧
    out = [(none, x), (none, y)] ∧ x.code = some "a" ∧ |x.amount - 21 / 4| ≤ 10 / 2 ^ 53 * (21 / 4) ∧
    y.code = some "b" ∧ |y.amount - 7 / 4| ≤ 10 / 2 ^ 53 * (7 / 4) := by
  have hu : Spec.double.u = 1 / 2 ^ 53 := rfl
  obtain ⟨out, hout⟩ := steelInput_split M
  obtain ⟨new, h1, h2⟩ := C123_consumers_each Spec.double M steelInput sharedSuppliers _ out hout rfl (by decide +kernel)
    (by decide +kernel) (by rw [hu]; norm_num [show sharedSuppliers.length = 3 from rfl])
  rw [show (sharedSuppliers.filter fun s => decide (statedVolume s ≠ 0)) = [sharedSuppliers[0], sharedSuppliers[1]] by decide +kernel,
    show (sharedSuppliers.map statedVolume).sum = 4 / 3 by decide +kernel] at h2
  obtain _ | ⟨⟨-, -, -, c1, a1⟩, _ | ⟨⟨-, -, -, c2, a2⟩, _ | _⟩⟩ := h2
  refine ⟨out, _, _, hout, by simpa using h1, c1, ?_, c2, ?_⟩
  · rw [show statedVolume sharedSuppliers[0] = 1 from rfl, show sharedSuppliers.length = 3 from rfl, hu,
      show steelInput.amount = 7 from rfl] at a1
    norm_num [abs_of_pos] at a1 ⊢
    exact a1
  · rw [show statedVolume sharedSuppliers[1] = 1 / 3 from rfl, show sharedSuppliers.length = 3 from rfl, hu,
      show steelInput.amount = 7 from rfl] at a2
    norm_num [abs_of_pos] at a2 ⊢
    exact a2

end Ocelot
