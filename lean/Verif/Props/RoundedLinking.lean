import Verif.Model.RoundedLinking
import Verif.Props.Rounded

/-!
# Property C123 for consumers: inputs divided between suppliers, with rounding
-/

namespace Ocelot
open Spec

/-- Every new input is the old one but for amount, uncertainty, type, tag and the code, which is a supplier's. -/
theorem inputSharesR_shape {R : Rounding} {M : MathEnv} {e : Exchange} {T : ℚ} : ∀ (l new : List Exchange),
    flatMapE (inputShareR R M e T) l = .ok new → ∀ x ∈ new,
      x.name = e.name ∧ x.type = .fromTechnosphere ∧ ∃ s ∈ l, x.code = s.code ∧ s.code ≠ none
  | [], new, h, x, hx => by
    cases h
    cases hx
  | s :: l, new, h, x, hx => by
    unfold flatMapE at h
    obtain ⟨a, ha, h⟩ := bind_eq_ok.mp h
    obtain ⟨b, hb, h⟩ := bind_eq_ok.mp h
    cases h
    rcases List.mem_append.1 hx with hx | hx
    · unfold inputShareR at ha
      obtain ⟨p, -, ha⟩ := bind_eq_ok.mp ha
      simp only [epure] at ha
      split at ha
      · cases ha
        cases hx
      · next hz =>
        obtain ⟨y, hy, ha⟩ := bind_eq_ok.mp ha
        obtain ⟨c, hc, ha⟩ := bind_eq_ok.mp ha
        obtain ⟨c', -, ha⟩ := bind_eq_ok.mp ha
        cases ha
        rw [List.mem_singleton] at hx
        subst hx
        have hcs : s.code = some c := by
          rcases hs : s.code with _ | d
          · rw [hs] at hc; cases hc
          · rw [hs] at hc; cases hc; rfl
        refine ⟨?_, rfl, s, by simp, hcs.symm, by simp [hcs]⟩
        obtain ⟨o, -, h2⟩ := bind_eq_ok.mp hy
        cases h2
        rfl
    · obtain ⟨h1, h2, s', hs', h3⟩ := inputSharesR_shape l b hb x hx
      exact ⟨h1, h2, s', by simp [hs'], h3⟩

/-- C123: in floating point arithmetic an unlinked input that is divided between `n` suppliers is replaced by inputs of the
same product from these suppliers that add up to it within a relative `2 (n + 2) u`; the other exchanges stay. -/
theorem C123_consumers (R : Rounding) (M : MathEnv) (e : Exchange) (sup : List Exchange) (ex out : List (Option ℕ × Exchange))
    (h : splitInputR R M e sup ex = .ok out) (hcode : e.code = none)
    (hvol : ∀ s ∈ sup, ∃ p, s.pv = some p ∧ 0 ≤ p.amount) (hsome : ∃ s ∈ sup, ∃ p, s.pv = some p ∧ p.amount ≠ 0)
    (hn : ((sup.length + 2 : ℕ) : ℚ) * R.u ≤ 1 / 2) :
    ∃ new : List Exchange, out = ex.filter (fun p => decide (p.2 ≠ e)) ++ new.map (fun x => (none, x)) ∧
      (∀ x ∈ new, x.name = e.name ∧ x.type = .fromTechnosphere ∧ ∃ s ∈ sup, x.code = s.code ∧ s.code ≠ none) ∧
      |(new.map (·.amount)).sum - e.amount| ≤ 2 * (sup.length + 2 : ℕ) * R.u * |e.amount| := by
  have u0 := R.nonneg
  have u1 := R.u_lt.le
  -- the volumes
  obtain ⟨vol, hvolume⟩ : ∃ vol : Exchange → ℚ, ∀ s ∈ sup, ∃ p, s.pv = some p ∧ p.amount = vol s ∧ 0 ≤ vol s := by
    refine ⟨fun s => (s.pv.map (·.amount)).getD 0, fun s hs => ?_⟩
    obtain ⟨p, hp, h0⟩ := hvol s hs
    exact ⟨p, hp, by simp [hp], by simp [hp, h0]⟩
  have hmap : mapE entryVolume sup = .ok (sup.map vol) := by
    rw [mapE_congr (g := fun s => .ok (vol s))]
    · exact mapE_pure vol sup
    · intro s hs
      obtain ⟨p, hp, hv, -⟩ := hvolume s hs
      simp [entryVolume, hp, hv]
  have vpos : ∀ x ∈ sup.map vol, 0 ≤ x := by
    intro x hx
    obtain ⟨s, hs, rfl⟩ := List.mem_map.1 hx
    obtain ⟨p, -, -, h0⟩ := hvolume s hs
    exact h0
  have hT := sumsTo_near (pySum_sumsTo R (sup.map vol)) vpos
  rw [List.length_map] at hT
  have Spos : 0 < (sup.map vol).sum := by
    obtain ⟨s, hs, p, hp, hne⟩ := hsome
    obtain ⟨q, hq, hv, h0⟩ := hvolume s hs
    have e1 : p = q := Option.some.inj (hp.symm.trans hq)
    subst e1
    have : vol s ≤ (sup.map vol).sum := List.single_le_sum vpos _ (List.mem_map.2 ⟨s, hs, rfl⟩)
    have : 0 < vol s := lt_of_le_of_ne h0 (by rw [← hv]; exact hne.symm)
    linarith
  have Tpos : 0 < pySum R (sup.map vol) := near_pos R.u_lt hT Spos
  unfold splitInputR at h
  simp only [ebind_ok, hmap, Tpos.ne', if_false, epure] at h
  obtain ⟨new, hnew, h2⟩ := bind_eq_ok.mp h
  have hshape := inputSharesR_shape sup new hnew
  refine ⟨new, ?_, fun x hx => hshape x hx, ?_⟩
  · rw [← Except.ok.inj h2, List.filter_append]
    congr 1
    refine List.filter_eq_self.2 fun p hp => ?_
    obtain ⟨x, hx, rfl⟩ := List.mem_map.1 hp
    obtain ⟨-, -, s, -, hc, hn0⟩ := hshape x hx
    refine decide_eq_true fun hxe => ?_
    rw [← hc, show x.code = none by rw [show x = e from hxe]; exact hcode] at hn0
    exact hn0 rfl
  generalize pySum R (sup.map vol) = T at hnew Tpos hT
  -- the amounts
  have key : ∀ (l : List Exchange) (new : List Exchange), (∀ s ∈ l, ∃ p, s.pv = some p ∧ p.amount = vol s ∧ 0 ≤ vol s) →
      flatMapE (inputShareR R M e T) l = .ok new →
      (new.map (·.amount)).sum = (if e.amount < 0 then -1 else 1) * (new.map fun x => |x.amount|).sum ∧
      Near R.u 2 (new.map fun x => |x.amount|).sum ((l.map vol).sum / T * |e.amount|) := by
    intro l
    induction l with
    | nil =>
      intro new _ hn
      cases hn
      constructor <;> simp [Near]
    | cons s l ih =>
      intro new hl hn
      unfold flatMapE at hn
      obtain ⟨a, ha, hn⟩ := bind_eq_ok.mp hn
      obtain ⟨b, hb, hn⟩ := bind_eq_ok.mp hn
      cases hn
      have ihb := ih b (fun t ht => hl t (by simp [ht])) hb
      obtain ⟨p, hp, hv, h0⟩ := hl s (by simp)
      have hab : (a.map (·.amount)).sum = (if e.amount < 0 then -1 else 1) * (a.map fun x => |x.amount|).sum ∧
          Near R.u 2 (a.map fun x => |x.amount|).sum (vol s / T * |e.amount|) := by
        unfold inputShareR at ha
        rw [hp] at ha
        simp only [getKey_some, ebind_ok, epure, hv] at ha
        by_cases hz : R.fl (vol s / T) = 0
        · rw [if_pos hz] at ha
          cases ha
          have : vol s / T = 0 := R.fl_eq_zero.1 hz
          rw [this]
          constructor <;> simp [Near]
        · rw [if_neg hz] at ha
          obtain ⟨x, hx1, ha⟩ := bind_eq_ok.mp ha
          obtain ⟨c, -, ha⟩ := bind_eq_ok.mp ha
          obtain ⟨c', -, ha⟩ := bind_eq_ok.mp ha
          cases ha
          have q0 : 0 ≤ vol s / T := div_nonneg h0 Tpos.le
          have qf := R.fl_nonneg q0
          simp only [List.map_cons, List.map_nil, List.sum_cons, List.sum_nil, add_zero]
          have n2 := near_mul (k := 0) u1 qf q0 (abs_nonneg e.amount) (abs_nonneg e.amount) (R.near q0) (near_refl R.u _)
          by_cases h1 : R.fl (vol s / T) = 1
          · rw [h1, scaleExchangeR_one] at hx1
            cases hx1
            refine ⟨?_, ?_⟩
            · split
              · next hx => rw [abs_of_neg hx]; ring
              · next hx => rw [abs_of_nonneg (not_lt.1 hx)]; ring
            · rw [h1, one_mul] at n2
              exact near_mono u0 u1 (abs_nonneg _) (mul_nonneg q0 (abs_nonneg _)) (by omega) n2
          · have hxa : x.amount = R.fl (e.amount * R.fl (vol s / T)) := by
              have := scaleExchangeR_frame h1 hx1
              rw [this]
            rw [hxa, mul_comm]
            refine ⟨?_, ?_⟩
            · split
              · next hx => rw [abs_of_nonpos (R.fl_nonpos (mul_nonpos_of_nonneg_of_nonpos qf hx.le))]; ring
              · next hx => rw [abs_of_nonneg (R.fl_nonneg (mul_nonneg qf (not_lt.1 hx)))]; ring
            · rw [R.abs_fl, abs_mul, abs_of_nonneg qf]
              exact near_trans u1 (R.near (mul_nonneg qf (abs_nonneg e.amount))) n2
      simp only [List.map_append, List.sum_append, List.map_cons, List.sum_cons]
      refine ⟨?_, ?_⟩
      · rw [hab.1, ihb.1]; ring
      · rw [add_div, add_mul]
        exact near_add hab.2 ihb.2
  have hk := key sup new hvolume hnew
  have hx0 := abs_nonneg e.amount
  have hn' : Near R.u (sup.length + 2) (new.map fun x => |x.amount|).sum |e.amount| := by
    have d : Near R.u sup.length ((sup.map vol).sum / T) 1 := by
      have := near_div (k := 0) u1 Spos.le Tpos.le Tpos Tpos (near_symm hT) (near_refl R.u T)
      rwa [div_self Tpos.ne', Nat.add_zero] at this
    have m := near_mul (k := 0) u1 (div_nonneg Spos.le Tpos.le) zero_le_one hx0 hx0 d (near_refl R.u |e.amount|)
    have := near_trans u1 hk.2 m
    rw [one_mul] at this
    have e1 : 2 + (sup.length + 0) = sup.length + 2 := by omega
    rwa [e1] at this
  have := near_abs u0 u1 hx0 hn hn'
  rw [hk.1]
  split
  · next hx =>
    have e1 : -1 * (new.map fun x => |x.amount|).sum - e.amount = -((new.map fun x => |x.amount|).sum - |e.amount|) := by
      rw [abs_of_neg hx]; ring
    rw [e1, abs_neg]
    exact this
  · next hx =>
    have e1 : 1 * (new.map fun x => |x.amount|).sum - e.amount = (new.map fun x => |x.amount|).sum - |e.amount| := by
      rw [abs_of_nonneg (not_lt.1 hx)]; ring
    rw [e1]
    exact this
/-- With exact arithmetic this is the exact model of the division. -/
theorem C123_consumers_exact (M : MathEnv) (e : Exchange) (sup : List Exchange) (ex : List (Option ℕ × Exchange)) :
    splitInputR Spec.exact M e sup ex = splitInput M e sup ex := by
  have hu : ∀ (o : NumObj) (u : Unc), uniformRepairR Spec.exact o u = uniformRepair o u := by
    intro o u
    have ha : ∀ a b : ℚ, allcloseR Spec.exact a b = allclose a b := by
      intro a b; simp [allcloseR, allclose, Spec.exact]
    rcases hmn : u.minimum with _ | mn
    · simp [uniformRepairR, uniformRepair, hmn]
    rcases hmx : u.maximum with _ | mx
    · simp [uniformRepairR, uniformRepair, hmn, hmx]
    rw [uniformRepairR_eq hmn hmx, uniformRepair_eq hmn hmx]
    simp only [ha]
    rfl
  have hs : ∀ (o : NumObj) (f : ℚ), o.scaleR Spec.exact M f = o.scale M f := by
    intro o f
    unfold NumObj.scaleR NumObj.scale
    split
    · rfl
    · rcases o.uncertainty with _ | u
      · rfl
      · rcases hk : u.kind with _ | k
        · simp only [hk]; rfl
        · have hn : normalRescaleR Spec.exact o u f = normalRescale o u f := by
            simp only [normalRescaleR, normalRescale, Spec.exact, id, sq]
          have hv : uniformRescaleR Spec.exact o u f = uniformRescale o u f := by
            simp only [uniformRescaleR, uniformRescale, hu]; rfl
          cases k <;> simp only [hk]
          all_goals first | exact hn | exact hv | rfl
  have he : ∀ (e : Exchange) (f : ℚ), scaleExchangeR Spec.exact M e f = scaleExchange M e f := by
    intro e f
    unfold scaleExchangeR scaleExchange
    rw [hs]
  have hi : ∀ T, inputShareR Spec.exact M e T = inputShare M e T := by
    intro T
    funext s
    unfold inputShareR inputShare
    simp only [he]
    rfl
  unfold splitInputR splitInput
  simp only [pySum_exact, hi]

/-- An input of steel without uncertainty. -/
def steelInput : Exchange := { name := "steel", type := .fromTechnosphere, amount := 7 }

/-- Its division between the three suppliers above succeeds in double precision. -/
theorem steelInput_split (M : MathEnv) :
    ∃ out, splitInputR Spec.double M steelInput sharedSuppliers [(some 0, steelInput)] = .ok out := by
  have hv : mapE entryVolume sharedSuppliers = .ok [1, 1 / 3, 0] := rfl
  have hT : pySum Spec.double [1, 1 / 3, 0] ≠ 0 :=
    (near_pos Spec.double.u_lt (sumsTo_near (pySum_sumsTo Spec.double _) (by decide +kernel)) (by decide +kernel)).ne'
  have hsc : ∀ f, ∃ x, scaleExchangeR Spec.double M steelInput f = .ok x := by
    intro f
    unfold scaleExchangeR NumObj.scaleR
    split <;> exact ⟨_, rfl⟩
  unfold splitInputR
  simp only [ebind_ok, hv, hT, if_false, epure]
  generalize pySum Spec.double [1, 1 / 3, 0] = T
  have h1 : ∀ s ∈ sharedSuppliers, ∃ y, inputShareR Spec.double M steelInput T s = .ok y := by
    intro s hs
    obtain ⟨p, hp, c, hc, l, hl⟩ : ∃ p, s.pv = some p ∧ ∃ c, s.code = some c ∧ ∃ l, s.location = some l := by
      simp only [sharedSuppliers, List.mem_cons, List.not_mem_nil, or_false] at hs
      rcases hs with rfl | rfl | rfl <;> exact ⟨_, rfl, _, rfl, _, rfl⟩
    unfold inputShareR
    simp only [hp, hc, hl, getKey_some, ebind_ok, epure]
    split
    · exact ⟨_, rfl⟩
    · obtain ⟨x, hx⟩ := hsc (Spec.double.fl (p.amount / T))
      rw [hx]
      exact ⟨_, rfl⟩
  have h2 : ∀ l : List Exchange, (∀ s ∈ l, ∃ y, inputShareR Spec.double M steelInput T s = .ok y) →
      ∃ new, flatMapE (inputShareR Spec.double M steelInput T) l = .ok new := by
    intro l
    induction l with
    | nil => intro _; exact ⟨_, rfl⟩
    | cons s l ih =>
      intro hl
      obtain ⟨y, hy⟩ := hl s (by simp)
      obtain ⟨z, hz⟩ := ih fun t ht => hl t (by simp [ht])
      unfold flatMapE
      rw [hy, hz]
      exact ⟨_, rfl⟩
  obtain ⟨new, hnew⟩ := h2 _ h1
  rw [hnew]
  exact ⟨_, rfl⟩

/-- The hypotheses hold for it and the three suppliers above in double precision. -/
example (M : MathEnv) : ∃ (out : List (Option ℕ × Exchange)) (new : List Exchange), splitInputR Spec.double M steelInput sharedSuppliers [(some 0, steelInput)] = .ok out ∧
    out = new.map (fun x => (none, x)) ∧ |(new.map (·.amount)).sum - 7| ≤ 70 / 2 ^ 53 := by
  obtain ⟨out, hout⟩ := steelInput_split M
  have hu : Spec.double.u = 1 / 2 ^ 53 := rfl
  obtain ⟨new, h1, -, h2⟩ := C123_consumers Spec.double M steelInput sharedSuppliers _ out hout rfl (by decide +kernel) (by decide +kernel) (by
    rw [hu]; norm_num [show sharedSuppliers.length = 3 from rfl])
  refine ⟨out, new, hout, by simpa using h1, le_trans h2 ?_⟩
  rw [hu]
  norm_num [show sharedSuppliers.length = 3 from rfl, show steelInput.amount = 7 from rfl]

end Ocelot
