import Verif.Props.RoundedShares

/-!
# Property C123: rounding does not change the order of suppliers
-/

namespace Ocelot
open Spec

/-- The inputs `new` belong to the suppliers `l` one by one, and a supplier with at least the volume of another one
delivers at least as much. -/
def Spec.InOrderOfVolume (l new : List Exchange) : Prop :=
  l.length = new.length ∧ ∀ p ∈ l.zip new, ∀ q ∈ l.zip new, statedVolume p.1 ≤ statedVolume q.1 → |p.2.amount| ≤ |q.2.amount|

/-- Amounts that are a monotone function of the volume are in order. -/
theorem inOrder_of_share {l new : List Exchange} (f : ℚ → ℚ) (hf : ∀ v w, v ≤ w → f v ≤ f w)
    (h : List.Forall₂ (fun s x : Exchange => |x.amount| = f (statedVolume s)) l new) : InOrderOfVolume l new := by
  refine ⟨h.length_eq, fun p hp q hq hpq => ?_⟩
  have hz : ∀ p ∈ l.zip new, |p.2.amount| = f (statedVolume p.1) := fun p hp => List.forall₂_zip h hp
  rw [hz p hp, hz q hq]
  exact hf _ _ hpq

theorem share_mono (R : Rounding) {T a v w : ℚ} (hT : 0 < T) (h : v ≤ w) :
    R.fl (R.fl (v / T) * |a|) ≤ R.fl (R.fl (w / T) * |a|) :=
  R.mono (mul_le_mul_of_nonneg_right (R.mono (div_le_div_of_nonneg_right h hT.le)) (abs_nonneg a))

/-- C123: also in floating point arithmetic, and without any tolerance, a supplier of a market with at least the volume
of another one delivers at least as much; equal volumes deliver equal amounts. -/
theorem C123_order (R : Rounding) (ds out : Dataset) (sup : List Exchange) (e : Exchange)
    (h : allocateSuppliersR R ds = .ok out) (he : refs ds = [e]) (hs : ds.suppliers = some sup)
    (hvol : ∀ s ∈ sup, ∃ p, s.pv = some p ∧ 0 ≤ p.amount) (hsome : ∃ s ∈ sup, ∃ p, s.pv = some p ∧ p.amount ≠ 0) :
    ∃ new, out = { ds with exchanges := ds.exchanges ++ new } ∧
      InOrderOfVolume (sup.filter fun s => decide (statedVolume s ≠ 0)) new := by
  obtain ⟨hmap, -, Tpos, -⟩ := volumes_ok R sup hvol hsome
  unfold allocateSuppliersR at h
  rw [getSingle_ok.mpr he, hs] at h
  simp only [ebind_ok, getKey_some, hmap, Tpos.ne', if_false, epure] at h
  obtain ⟨new, hnew, h2⟩ := bind_eq_ok.mp h
  refine ⟨new, by rw [← Except.ok.inj h2, hs],
    inOrder_of_share (fun v => R.fl (R.fl (v / pySum R (sup.map statedVolume)) * |e.amount|)) (fun v w hvw => share_mono R Tpos hvw)
      (flatMapE_shares sup new (fun s hs a ha => ?_) hnew)⟩
  obtain ⟨p, hp, h0⟩ := hvol s hs
  have hv : p.amount = statedVolume s := by simp [statedVolume, hp]
  rw [hv] at h0
  unfold marketInputR at ha
  rw [hp] at ha
  simp only [getKey_some, ebind_ok, epure, hv] at ha
  by_cases hz : R.fl (statedVolume s / pySum R (sup.map statedVolume)) = 0
  · rw [if_pos hz] at ha
    cases ha
    exact .inl ⟨(div_eq_zero_iff.1 (R.fl_eq_zero.1 hz)).resolve_right Tpos.ne', rfl⟩
  · rw [if_neg hz] at ha
    obtain ⟨c, hc, ha⟩ := bind_eq_ok.mp ha
    obtain ⟨c', -, ha⟩ := bind_eq_ok.mp ha
    cases ha
    refine .inr ⟨fun h1 => hz (by rw [h1, zero_div]; exact R.fl_eq_zero.2 rfl), _, rfl, ?_⟩
    rw [R.abs_fl, abs_mul, abs_of_nonneg (R.fl_nonneg (div_nonneg h0 Tpos.le))]

/-- C123: the same for the markets between which an input of a consumer is divided, if its amount is a floating point
number. -/
theorem C123_consumers_order (R : Rounding) (M : MathEnv) (e : Exchange) (sup : List Exchange) (ex out : List (Option ℕ × Exchange))
    (h : splitInputR R M e sup ex = .ok out) (hcode : e.code = none) (hfl : R.fl e.amount = e.amount)
    (hvol : ∀ s ∈ sup, ∃ p, s.pv = some p ∧ 0 ≤ p.amount) (hsome : ∃ s ∈ sup, ∃ p, s.pv = some p ∧ p.amount ≠ 0) :
    ∃ new : List Exchange, out = ex.filter (fun p => decide (p.2 ≠ e)) ++ new.map (fun x => (none, x)) ∧
      InOrderOfVolume (sup.filter fun s => decide (statedVolume s ≠ 0)) new := by
  obtain ⟨hmap, -, Tpos, -⟩ := volumes_ok R sup hvol hsome
  unfold splitInputR at h
  simp only [ebind_ok, hmap, Tpos.ne', if_false, epure] at h
  obtain ⟨new, hnew, h2⟩ := bind_eq_ok.mp h
  refine ⟨new, ?_,
    inOrder_of_share (fun v => R.fl (R.fl (v / pySum R (sup.map statedVolume)) * |e.amount|)) (fun v w hvw => share_mono R Tpos hvw)
      (flatMapE_shares sup new (fun s hs a ha => ?_) hnew)⟩
  · rw [← Except.ok.inj h2, List.filter_append]
    congr 1
    refine List.filter_eq_self.2 fun p hp => ?_
    obtain ⟨x, hx, rfl⟩ := List.mem_map.1 hp
    obtain ⟨-, -, s, -, hc, hn0⟩ := inputSharesR_shape sup new hnew x hx
    refine decide_eq_true fun hxe => ?_
    rw [← hc, show x.code = none by rw [show x = e from hxe]; exact hcode] at hn0
    exact hn0 rfl
  obtain ⟨p, hp, h0⟩ := hvol s hs
  have hv : p.amount = statedVolume s := by simp [statedVolume, hp]
  rw [hv] at h0
  unfold inputShareR at ha
  rw [hp] at ha
  simp only [getKey_some, ebind_ok, epure, hv] at ha
  by_cases hz : R.fl (statedVolume s / pySum R (sup.map statedVolume)) = 0
  · rw [if_pos hz] at ha
    cases ha
    exact .inl ⟨(div_eq_zero_iff.1 (R.fl_eq_zero.1 hz)).resolve_right Tpos.ne', rfl⟩
  · rw [if_neg hz] at ha
    obtain ⟨y, hy, ha⟩ := bind_eq_ok.mp ha
    obtain ⟨c, hc, ha⟩ := bind_eq_ok.mp ha
    obtain ⟨c', -, ha⟩ := bind_eq_ok.mp ha
    cases ha
    refine .inr ⟨fun h1 => hz (by rw [h1, zero_div]; exact R.fl_eq_zero.2 rfl), _, rfl, ?_⟩
    change |y.amount| = _
    by_cases h1 : R.fl (statedVolume s / pySum R (sup.map statedVolume)) = 1
    · rw [h1, scaleExchangeR_one] at hy
      cases hy
      simp only [h1, one_mul]
      rw [← R.abs_fl, hfl]
    · have hya : y.amount = R.fl (e.amount * R.fl (statedVolume s / pySum R (sup.map statedVolume))) := by
        rw [scaleExchangeR_frame h1 hy]
      rw [hya, R.abs_fl, abs_mul, abs_of_nonneg (R.fl_nonneg (div_nonneg h0 Tpos.le)), mul_comm]

theorem sharedVolumes : statedVolume sharedSuppliers[1] ≤ statedVolume sharedSuppliers[0] := by decide +kernel

theorem fl_seven : Spec.double.fl 7 = 7 := by
  have := roundDouble_of (x := 7) 2 7881299347898368 (by norm_num) (by norm_num) (by norm_num [abs_lt])
  rw [show Spec.double.fl = roundDouble from rfl, this]
  norm_num

/-- The hypotheses hold for an input of seven units and three suppliers, of which the first delivers at least as much as
the second one. -/
example (M : MathEnv) : ∃ out x y, splitInputR Spec.double M steelInput sharedSuppliers [(some 0, steelInput)] = .ok out ∧
    out = [(none, x), (none, y)] ∧ |y.amount| ≤ |x.amount| := by
  obtain ⟨out, hout⟩ := steelInput_split M
  obtain ⟨new, h1, h2, h3⟩ := C123_consumers_order Spec.double M steelInput sharedSuppliers _ out hout rfl fl_seven (by decide +kernel)
    (by decide +kernel)
  rw [show (sharedSuppliers.filter fun s => decide (statedVolume s ≠ 0)) = [sharedSuppliers[0], sharedSuppliers[1]] by decide +kernel] at h2 h3
  obtain ⟨x, y, rfl⟩ := List.length_eq_two.1 h2.symm
  exact ⟨out, x, y, hout, by simpa using h1, h3 (sharedSuppliers[1], y) (by simp) (sharedSuppliers[0], x) (by simp) sharedVolumes⟩

/-- So do those of C123_order for the market of these suppliers. -/
example (out : Dataset) (h : allocateSuppliersR Spec.double sharedMarket = .ok out) :
    ∃ x y, out.exchanges = sharedMarket.exchanges ++ [x, y] ∧ |y.amount| ≤ |x.amount| := by
  obtain ⟨new, h1, h2, h3⟩ := C123_order Spec.double sharedMarket out sharedSuppliers _ h rfl rfl (by decide +kernel) (by decide +kernel)
  rw [show (sharedSuppliers.filter fun s => decide (statedVolume s ≠ 0)) = [sharedSuppliers[0], sharedSuppliers[1]] by decide +kernel] at h2 h3
  obtain ⟨x, y, rfl⟩ := List.length_eq_two.1 h2.symm
  exact ⟨x, y, by rw [h1], h3 (sharedSuppliers[1], y) (by simp) (sharedSuppliers[0], x) (by simp) sharedVolumes⟩

end Ocelot
