import Verif.Model.Markets
import Verif.Props.RestOfWorld
import Verif.Props.Topology
import Mathlib.Tactic.FieldSimp

/-! # Properties C41–C43: supplier shares and market production volumes -/

set_option linter.unusedSimpArgs false

namespace Ocelot
open Spec

/-! ## Specification -/

namespace Spec

/-- Production volume shown by a supplier entry. -/
def vol (s : Exchange) : ℚ := (s.pv.map (·.amount)).getD 0

/-- Original production volume shown by a supplier entry. -/
def origVol (s : Exchange) : ℚ := (s.pv.map fun p => p.originalAmount.getD p.amount).getD 0

/-- Sum of the volumes. -/
def totalVol (l : List Exchange) : ℚ := (l.map vol).sum

/-- The input exchange that delivers the fraction `vol s / total` of `amount`. -/
def inputFrom (amount total : ℚ) (s : Exchange) : Exchange :=
  { amount := vol s / total * amount, name := s.name, unit := s.unit, type := .fromTechnosphere, tag := "intermediateExchange", code := s.code }

/-- A complete supplier entry. -/
def Usable (s : Exchange) : Prop := s.pv.isSome ∧ s.code.isSome ∧ s.location.isSome

instance (s : Exchange) : Decidable (Usable s) := by unfold Usable; infer_instance

end Spec

theorem mapE_entryVolume {l : List Exchange} {r : List ℚ} (h : mapE entryVolume l = .ok r) :
    r = l.map vol ∧ ∀ s ∈ l, s.pv.isSome := by
  have hall : ∀ s ∈ l, ∃ p, s.pv = some p := by
    intro s hs
    obtain ⟨b, -, hb⟩ := forall₂_mem_left (mapE_ok_iff.mp h) hs
    obtain ⟨p, hp, -⟩ := bind_eq_ok.mp hb
    exact ⟨p, getKey_eq_ok.mp hp⟩
  have he : mapE entryVolume l = .ok (l.map vol) := by
    rw [← mapE_pure]
    apply mapE_congr
    intro s hs
    obtain ⟨p, hp⟩ := hall s hs
    unfold entryVolume vol
    rw [hp]; rfl
  rw [he] at h
  cases h
  exact ⟨rfl, fun s hs => by obtain ⟨p, hp⟩ := hall s hs; simp [hp]⟩

theorem entryVolume_all {l : List Exchange} (h : ∀ s ∈ l, s.pv.isSome) : mapE entryVolume l = .ok (l.map vol) := by
  rw [← mapE_pure]
  apply mapE_congr
  intro s hs
  obtain ⟨p, hp⟩ := Option.isSome_iff_exists.mp (h s hs)
  unfold entryVolume vol
  rw [hp]; rfl

theorem marketInput_ok {a t : ℚ} {s : Exchange} {r : List Exchange} (h : marketInput a t s = .ok r) :
    s.pv.isSome ∧ (vol s / t = 0 ∧ r = [] ∨ vol s / t ≠ 0 ∧ r = [inputFrom a t s] ∧ s.code.isSome ∧ s.location.isSome) := by
  unfold marketInput at h
  obtain ⟨p, hp, h⟩ := bind_eq_ok.mp h
  have hp := getKey_eq_ok.mp hp
  have hv : vol s = p.amount := by unfold vol; rw [hp]; rfl
  refine ⟨by simp [hp], ?_⟩
  simp only [← hv] at h
  by_cases h0 : vol s / t = 0
  · rw [if_pos h0] at h
    cases h
    exact Or.inl ⟨h0, rfl⟩
  · rw [if_neg h0] at h
    obtain ⟨c, hc, h⟩ := bind_eq_ok.mp h
    obtain ⟨l, hl, h⟩ := bind_eq_ok.mp h
    cases h
    have hc := getKey_eq_ok.mp hc
    refine Or.inr ⟨h0, ?_, by simp [hc], by simp [getKey_eq_ok.mp hl]⟩
    unfold inputFrom; rw [hc]

theorem flatMapE_marketInput {a t : ℚ} (ht : t ≠ 0) {l r : List Exchange} (h : flatMapE (marketInput a t) l = .ok r) :
    r = (l.filter fun s => vol s != 0).map (inputFrom a t) ∧ ∀ s ∈ l, vol s ≠ 0 → Usable s := by
  induction l generalizing r with
  | nil => cases h; simp
  | cons s l ih =>
    obtain ⟨b, r', h1, h2, rfl⟩ := flatMapE_cons_ok.mp h
    obtain ⟨rfl, hu⟩ := ih h2
    obtain ⟨hpv, h1' | ⟨h1', rfl, hc, hl⟩⟩ := marketInput_ok h1
    · obtain ⟨h1', rfl⟩ := h1'
      have hv : vol s = 0 := by
        rcases div_eq_zero_iff.mp h1' with h | h
        · exact h
        · exact absurd h ht
      constructor
      · simp [hv]
      · intro x hx
        rcases List.mem_cons.mp hx with rfl | hx
        · intro h; exact absurd hv h
        · exact hu x hx
    · have hv : vol s ≠ 0 := fun h => h1' (by rw [h]; simp)
      constructor
      · simp [hv]
      · intro x hx
        rcases List.mem_cons.mp hx with rfl | hx
        · intro _; exact ⟨hpv, hc, hl⟩
        · exact hu x hx

theorem flatMapE_marketInput_of {a t : ℚ} (ht : t ≠ 0) {l : List Exchange} (hpv : ∀ s ∈ l, s.pv.isSome)
    (h : ∀ s ∈ l, vol s ≠ 0 → Usable s) :
    flatMapE (marketInput a t) l = .ok ((l.filter fun s => vol s != 0).map (inputFrom a t)) := by
  obtain ⟨r, hr⟩ : ∃ r, flatMapE (marketInput a t) l = .ok r := by
    obtain ⟨bs, hbs⟩ := mapE_ok_of_forall (f := marketInput a t) (l := l) (by
      intro s hs
      obtain ⟨p, hp⟩ := Option.isSome_iff_exists.mp (hpv s hs)
      have hv : vol s = p.amount := by unfold vol; rw [hp]; rfl
      unfold marketInput
      simp only [hp, getKey_some, ebind_ok]
      by_cases h0 : p.amount / t = 0
      · rw [if_pos h0]; exact ⟨_, rfl⟩
      · rw [if_neg h0]
        obtain ⟨-, hc, hl⟩ := h s hs (by rw [hv]; intro h; exact h0 (by rw [h]; simp))
        obtain ⟨c, hc⟩ := Option.isSome_iff_exists.mp hc
        obtain ⟨l, hl⟩ := Option.isSome_iff_exists.mp hl
        simp only [hc, hl, getKey_some, ebind_ok]
        exact ⟨_, rfl⟩)
    exact ⟨_, flatMapE_ok_iff.mpr ⟨bs, hbs, rfl⟩⟩
  rw [hr, (flatMapE_marketInput ht hr).1]

/-! ## C41 -/

/-- C41: with a nonzero total volume one input per supplier with nonzero volume is appended, with the amount
volume / total × production amount and the supplier's code; nothing else changes. -/
theorem C41_shares (ds out : Dataset) (sup : List Exchange) (hs : ds.suppliers = some sup) (ht : totalVol sup ≠ 0)
    (h : allocateSuppliers ds = .ok out) :
    ∃ r, refs ds = [r] ∧
      out = { ds with exchanges := ds.exchanges ++ (sup.filter fun s => vol s != 0).map (inputFrom r.amount (totalVol sup)) } := by
  unfold allocateSuppliers at h
  obtain ⟨r, hr, h⟩ := bind_eq_ok.mp h
  obtain ⟨sup', hs', h⟩ := bind_eq_ok.mp h
  obtain ⟨vols, hv, h⟩ := bind_eq_ok.mp h
  have hs' := getKey_eq_ok.mp hs'
  rw [hs] at hs'
  cases hs'
  obtain ⟨rfl, -⟩ := mapE_entryVolume hv
  refine ⟨r, getSingle_ok.mp hr, ?_⟩
  rw [if_neg (c := (sup.map vol).sum = 0) ht] at h
  obtain ⟨new, hn, h⟩ := bind_eq_ok.mp h
  cases h
  rw [(flatMapE_marketInput ht hn).1]

/-- C41: the shares add up: the appended amounts sum exactly to the production amount. -/
theorem C41_sum (sup : List Exchange) (a : ℚ) (ht : totalVol sup ≠ 0) :
    (((sup.filter fun s => vol s != 0).map (inputFrom a (totalVol sup))).map (·.amount)).sum = a := by
  have key : ∀ (l : List Exchange) (t : ℚ), (((l.filter fun s => vol s != 0).map (inputFrom a t)).map (·.amount)).sum =
      (l.map vol).sum / t * a := by
    intro l t
    induction l with
    | nil => simp
    | cons s l ih =>
      by_cases hv : vol s = 0
      · simp only [hv, List.filter_cons, bne_self_eq_false, Bool.false_eq_true, if_false, List.map_cons, List.sum_cons, zero_add]
        exact ih
      · have hb : (vol s != 0) = true := by simp [hv]
        simp only [List.filter_cons, hb, if_true, List.map_cons, List.sum_cons, ih]
        simp only [inputFrom]
        ring
  rw [key]
  unfold totalVol at ht ⊢
  field_simp

/-- C41: if one supplier is present and its volume is zero it delivers everything (and gets the volume 4321). -/
theorem C41_single_zero (ds out : Dataset) (s : Exchange) (hs : ds.suppliers = some [s]) (ht : vol s = 0)
    (h : allocateSuppliers ds = .ok out) :
    ∃ r, refs ds = [r] ∧
      out = { ds with suppliers := some [{ s with pv := s.pv.map fun p => { p with amount := 4321 } }], exchanges := ds.exchanges ++ [{ amount := r.amount, name := s.name, unit := s.unit, type := .fromTechnosphere, tag := "intermediateExchange", code := s.code }] } := by
  unfold allocateSuppliers at h
  obtain ⟨r, hr, h⟩ := bind_eq_ok.mp h
  obtain ⟨sup', hs', h⟩ := bind_eq_ok.mp h
  obtain ⟨vols, hv, h⟩ := bind_eq_ok.mp h
  have hs' := getKey_eq_ok.mp hs'
  rw [hs] at hs'
  cases hs'
  obtain ⟨rfl, hpv⟩ := mapE_entryVolume hv
  refine ⟨r, getSingle_ok.mp hr, ?_⟩
  rw [if_pos (by simp [ht])] at h
  rw [if_neg (by simp)] at h
  obtain ⟨_, -, h⟩ := bind_eq_ok.mp h
  obtain ⟨_, -, h⟩ := bind_eq_ok.mp h
  obtain ⟨new, hn, h⟩ := bind_eq_ok.mp h
  cases h
  obtain ⟨p, hp⟩ := Option.isSome_iff_exists.mp (hpv s (by simp))
  have hd : vol (defaultVolume s) = 4321 := by simp [vol, defaultVolume, hp]
  rw [(flatMapE_marketInput (by norm_num) hn).1]
  simp only [List.map_cons, List.map_nil, List.filter_cons, hd, List.filter_nil]
  have : ((4321 : ℚ) != 0) = true := by decide +kernel
  simp only [this, if_true, List.map_cons, List.map_nil, inputFrom, hd]
  have h1 : (4321 : ℚ) / 4321 * r.amount = r.amount := by norm_num
  rw [h1]
  rfl

/-- C41: several suppliers (or none) with a total volume of zero: the dataset stays unchanged. -/
theorem C41_several_zero (ds : Dataset) (sup : List Exchange) (hs : ds.suppliers = some sup) (hl : sup.length ≠ 1)
    (ht : totalVol sup = 0) (r : Exchange) (hr : refs ds = [r]) (hpv : ∀ s ∈ sup, s.pv.isSome) :
    allocateSuppliers ds = .ok ds := by
  unfold allocateSuppliers
  simp only [getSingle_ok.mpr hr, hs, getKey_some, ebind_ok, entryVolume_all hpv]
  rw [if_pos (c := (sup.map vol).sum = 0) ht, if_pos hl]
  rfl

/-- C41: it succeeds for a dataset with one reference product and complete supplier entries. -/
theorem C41_total (ds : Dataset) (sup : List Exchange) (hs : ds.suppliers = some sup) (r : Exchange) (hr : refs ds = [r])
    (hp : ds.refProduct.isSome) (hu : ∀ s ∈ sup, Usable s) : ∃ out, allocateSuppliers ds = .ok out := by
  have hpv : ∀ s ∈ sup, s.pv.isSome := fun s hs => (hu s hs).1
  unfold allocateSuppliers
  simp only [getSingle_ok.mpr hr, hs, getKey_some, ebind_ok, entryVolume_all hpv]
  by_cases ht : (sup.map vol).sum = 0
  · rw [if_pos ht]
    by_cases hl : sup.length ≠ 1
    · rw [if_pos hl]; exact ⟨_, rfl⟩
    · rw [if_neg hl]
      obtain ⟨x, hx⟩ := Option.isSome_iff_exists.mp hp
      obtain ⟨ls, hls⟩ := mapE_ok_of_forall (f := fun s : Exchange => getKey s.location) (l := sup) (by
        intro s hs
        obtain ⟨y, hy⟩ := Option.isSome_iff_exists.mp (hu s hs).2.2
        exact ⟨y, by rw [hy]; rfl⟩)
      simp only [hx, getKey_some, ebind_ok, hls]
      have hd : ∀ s ∈ sup.map defaultVolume, Usable s := by
        intro s hs
        obtain ⟨s₀, h0, rfl⟩ := List.mem_map.mp hs
        obtain ⟨a, b, c⟩ := hu s₀ h0
        exact ⟨by simp [defaultVolume, a], b, c⟩
      rw [flatMapE_marketInput_of (by norm_num) (fun s hs => (hd s hs).1) (fun s hs _ => hd s hs)]
      exact ⟨_, rfl⟩
  · rw [if_neg ht, flatMapE_marketInput_of ht hpv (fun s hs _ => hu s hs)]
    exact ⟨_, rfl⟩

/-- C41 for a whole list: `allocate_all_market_suppliers` treats each dataset of the kind by itself. -/
theorem C41_all (kind : DsType) (data out : List Dataset) :
    allocateAllMarketSuppliers kind data = .ok out ↔
      List.Forall₂ (fun a b => if a.type = kind then allocateSuppliers a = .ok b else b = a) data out := by
  unfold allocateAllMarketSuppliers
  rw [mapE_ok_iff]
  constructor <;> intro h <;> refine h.imp ?_ <;> intro a b <;> split
  · exact id
  · intro h; cases h; rfl
  · exact id
  · rintro rfl; rfl

/-- Two suppliers of a market. -/
def exampleMarket : Dataset :=
  { name := "m", type := .market, refProduct := some "p", suppliers := some [{ name := "p", type := .referenceProduct, amount := 1, pv := some { amount := 30 }, code := some "a", location := some "CH" }, { name := "p", type := .referenceProduct, amount := 1, pv := some { amount := 10, subtracted := some 5, originalAmount := some 15 }, code := some "b", location := some "FR" }], exchanges := [{ name := "p", type := .referenceProduct, amount := 2, pv := some { amount := 0, subtracted := some 4 } }] }

example : ∃ sup, exampleMarket.suppliers = some sup ∧ totalVol sup ≠ 0 ∧ ∀ s ∈ sup, Usable s := by
  refine ⟨_, rfl, ?_, ?_⟩ <;> decide +kernel
example : (allocateSuppliers exampleMarket).map (fun d => d.exchanges.map fun e => (e.amount, e.code)) =
    .ok [(2, none), (3/2, some "a"), (1/2, some "b")] := by decide +kernel

/-! ## C42 -/

/-- C42: the order of the suppliers is irrelevant: it only permutes the created exchanges (and the supplier list). -/
theorem C42_order_irrelevant (ds out : Dataset) (sup sup' : List Exchange) (hs : ds.suppliers = some sup) (hp : sup'.Perm sup)
    (h : allocateSuppliers ds = .ok out) :
    ∃ out', allocateSuppliers { ds with suppliers := some sup' } = .ok out' ∧ ∃ new new' s s',
      out = { ds with exchanges := ds.exchanges ++ new, suppliers := some s } ∧
      out' = { ds with exchanges := ds.exchanges ++ new', suppliers := some s' } ∧ new'.Perm new ∧ s'.Perm s := by
  have hvol : (sup'.map vol).sum = (sup.map vol).sum := (hp.map vol).sum_eq
  unfold allocateSuppliers at h ⊢
  obtain ⟨r, hr, h⟩ := bind_eq_ok.mp h
  obtain ⟨sup₁, hs₁, h⟩ := bind_eq_ok.mp h
  obtain ⟨vols, hv, h⟩ := bind_eq_ok.mp h
  have hs₁ := getKey_eq_ok.mp hs₁
  rw [hs] at hs₁
  cases hs₁
  obtain ⟨rfl, hpv⟩ := mapE_entryVolume hv
  have hpv' : ∀ s ∈ sup', s.pv.isSome := fun s hs => hpv s (hp.mem_iff.mp hs)
  have hr' : getSingleReferenceProduct { ds with suppliers := some sup' } = .ok r := hr
  simp only [hr', getKey_some, ebind_ok, entryVolume_all hpv', hvol]
  by_cases ht : (sup.map vol).sum = 0
  · rw [if_pos ht] at h ⊢
    by_cases hl : sup.length ≠ 1
    · rw [if_pos hl] at h
      rw [if_pos (by rw [hp.length_eq]; exact hl)]
      cases h
      exact ⟨_, rfl, [], [], sup, sup', by simp [← hs], by simp, List.Perm.refl _, hp⟩
    · rw [if_neg hl] at h
      obtain ⟨s, rfl⟩ := List.length_eq_one_iff.mp (not_not.mp hl)
      have : sup' = [s] := List.perm_singleton.mp hp
      subst this
      rw [if_neg (by simp)]
      obtain ⟨x, hx, h⟩ := bind_eq_ok.mp h
      obtain ⟨y, hy, h⟩ := bind_eq_ok.mp h
      obtain ⟨new, hn, h⟩ := bind_eq_ok.mp h
      cases h
      simp only [hx, hy, hn, ebind_ok]
      exact ⟨_, rfl, new, new, _, _, rfl, rfl, List.Perm.refl _, List.Perm.refl _⟩
  · rw [if_neg ht] at h ⊢
    obtain ⟨new, hn, h⟩ := bind_eq_ok.mp h
    cases h
    obtain ⟨rfl, hu⟩ := flatMapE_marketInput ht hn
    rw [flatMapE_marketInput_of ht hpv' (fun s hs => hu s (hp.mem_iff.mp hs))]
    refine ⟨_, rfl, _, _, sup, sup', by rw [← hs], rfl, ?_, hp⟩
    exact (hp.filter _).map _

example : ∃ sup', sup' ≠ exampleMarket.suppliers.getD [] ∧ sup'.Perm (exampleMarket.suppliers.getD []) :=
  ⟨(exampleMarket.suppliers.getD []).reverse, by decide +kernel, List.reverse_perm _⟩

/-! ## C43 -/

namespace Spec

/-- The market with its new volume. -/
def netSupply (sup : List Exchange) (e : Exchange) : Exchange :=
  if e.type = .referenceProduct then
    { e with pv := e.pv.map fun p => { p with amount := max (totalVol sup - p.subtracted.getD 0) 0, originalTotal := some (sup.map origVol).sum } }
  else e

end Spec

theorem mapE_entryOriginalVolume {l : List Exchange} {r : List ℚ} (h : mapE entryOriginalVolume l = .ok r) :
    r = l.map origVol := by
  have he : mapE entryOriginalVolume l = .ok (l.map origVol) := by
    rw [← mapE_pure]
    apply mapE_congr
    intro s hs
    obtain ⟨b, -, hb⟩ := forall₂_mem_left (mapE_ok_iff.mp h) hs
    obtain ⟨p, hp, -⟩ := bind_eq_ok.mp hb
    unfold entryOriginalVolume origVol
    rw [getKey_eq_ok.mp hp]; rfl
  rw [he] at h
  cases h; rfl

theorem updateMarketVolume_ok {ds out : Dataset} (h : updateMarketVolume ds = .ok out) :
    ∃ sup r p, ds.suppliers = some sup ∧ refs ds = [r] ∧ r.pv = some p ∧ (∀ s ∈ sup, s.pv.isSome) ∧
      out = { ds with exchanges := ds.exchanges.map (netSupply sup) } := by
  unfold updateMarketVolume at h
  obtain ⟨r, hr, h⟩ := bind_eq_ok.mp h
  obtain ⟨sup, hs, h⟩ := bind_eq_ok.mp h
  obtain ⟨orig, ho, h⟩ := bind_eq_ok.mp h
  obtain ⟨p, hp, h⟩ := bind_eq_ok.mp h
  obtain ⟨vols, hv, h⟩ := bind_eq_ok.mp h
  cases h
  obtain ⟨rfl, hpv⟩ := mapE_entryVolume hv
  have := mapE_entryOriginalVolume ho
  subst this
  refine ⟨sup, r, p, getKey_eq_ok.mp hs, getSingle_ok.mp hr, getKey_eq_ok.mp hp, hpv, ?_⟩
  congr 1

theorem updateMarketVolume_of {ds : Dataset} {sup : List Exchange} {r : Exchange} {p : PV} (hs : ds.suppliers = some sup)
    (hr : refs ds = [r]) (hp : r.pv = some p) (hpv : ∀ s ∈ sup, s.pv.isSome) :
    updateMarketVolume ds = .ok { ds with exchanges := ds.exchanges.map (netSupply sup) } := by
  have ho : mapE entryOriginalVolume sup = .ok (sup.map origVol) := by
    rw [← mapE_pure]
    apply mapE_congr
    intro s hs
    obtain ⟨q, hq⟩ := Option.isSome_iff_exists.mp (hpv s hs)
    unfold entryOriginalVolume origVol
    rw [hq]; rfl
  unfold updateMarketVolume
  simp only [getSingle_ok.mpr hr, hs, getKey_some, ebind_ok, ho, hp, entryVolume_all hpv]
  rfl

/-- C43: for every kind except market groups, each dataset of the kind gets the volume
`max(Σ supplier volumes − subtracted volume, 0)` and the sum of the original volumes as original total; nothing
else changes and other datasets stay the same. -/
theorem C43_net_supply (T : Topology) (kind : DsType) (hk : kind ≠ .marketGroup) (data out : List Dataset)
    (h : updateMarketProductionVolumes T kind data = .ok out) :
    List.Forall₂ (fun a b => if a.type = kind then ∃ sup r p, a.suppliers = some sup ∧ refs a = [r] ∧ r.pv = some p ∧
        b = { a with exchanges := a.exchanges.map (netSupply sup) } else b = a) data out := by
  unfold updateMarketProductionVolumes at h
  rw [if_neg hk] at h
  refine (mapE_ok_iff.mp h).imp fun a b hab => ?_
  split at hab
  · next ht =>
    rw [if_pos ht]
    obtain ⟨sup, r, p, h1, h2, h3, -, h5⟩ := updateMarketVolume_ok hab
    exact ⟨sup, r, p, h1, h2, h3, h5⟩
  · next ht =>
    rw [if_neg ht]
    cases hab; rfl

/-- C43: the resulting volume is never negative and equals the net supply when that is not negative. -/
theorem C43_nonneg (sup : List Exchange) (e : Exchange) (p : PV) (he : e.type = .referenceProduct) (hp : e.pv = some p) :
    ∃ p', (netSupply sup e).pv = some p' ∧ 0 ≤ p'.amount ∧
      (p.subtracted.getD 0 ≤ totalVol sup → p'.amount = totalVol sup - p.subtracted.getD 0) ∧
      p'.originalTotal = some (sup.map origVol).sum := by
  refine ⟨{ p with amount := max (totalVol sup - p.subtracted.getD 0) 0, originalTotal := some (sup.map origVol).sum }, ?_, le_max_right _ _, ?_, rfl⟩
  · unfold netSupply; rw [if_pos he, hp]; rfl
  · intro h
    exact max_eq_left (by linarith)

/-- C43: success condition. -/
theorem C43_total (T : Topology) (kind : DsType) (hk : kind ≠ .marketGroup) (data : List Dataset)
    (h : ∀ a ∈ data, a.type = kind → ∃ sup r p, a.suppliers = some sup ∧ refs a = [r] ∧ r.pv = some p ∧ ∀ s ∈ sup, s.pv.isSome) :
    ∃ out, updateMarketProductionVolumes T kind data = .ok out := by
  unfold updateMarketProductionVolumes
  rw [if_neg hk]
  apply mapE_ok_of_forall
  intro a ha
  split
  · next ht =>
    obtain ⟨sup, r, p, h1, h2, h3, h4⟩ := h a ha ht
    exact ⟨_, updateMarketVolume_of h1 h2 h3 h4⟩
  · exact ⟨_, rfl⟩

example : updateMarketProductionVolumes ⟨[], fun _ => 1⟩ .market [exampleMarket] = .ok [{ exampleMarket with exchanges := [{ name := "p", type := .referenceProduct, amount := 2, pv := some { amount := 36, subtracted := some 4, originalTotal := some 45 } }] }] := by
  decide +kernel

/-! ## C44 -/

namespace Spec

/-- Position `i` holds a market group with the code `c`. -/
def GroupAt (data : List Dataset) (i : ℕ) (c : String) : Prop :=
  ∃ d, data[i]? = some d ∧ d.type = .marketGroup ∧ d.code = some c

/-- Every market group has its own code. -/
def OwnCodes (data : List Dataset) : Prop :=
  (∀ d ∈ data, d.type = .marketGroup → d.code.isSome) ∧ ∀ i j c, GroupAt data i c → GroupAt data j c → i = j

/-- A market group that supplies another one is smaller (in the order of C36: larger size first, then larger name). -/
def SmallerFirst (T : Topology) (data : List Dataset) : Prop :=
  ∀ (i j : ℕ) (a b : Dataset) (c : String), data[i]? = some a → data[j]? = some b → b.type = .marketGroup → GroupAt data i c →
    (∃ sup s, b.suppliers = some sup ∧ s ∈ sup ∧ s.code = some c) → Before T none b.location a.location

/-- The volume shown by an output dataset's reference product. -/
def finalVolume (out : List Dataset) (i : ℕ) : ℚ := ((out[i]?.bind productionVolume)).getD 0

/-- The entry `s'` is the entry `s`, with the volume brought up to date if it refers to a market group. -/
def UpToDate (data out : List Dataset) (s s' : Exchange) : Prop :=
  (∀ i c, s.code = some c → GroupAt data i c → s' = { s with pv := some { amount := finalVolume out i } }) ∧
  ((∀ i c, s.code = some c → ¬ GroupAt data i c) → s' = s)

end Spec

theorem mapE_zipIdx {α β : Type} {f : α × ℕ → Except Err β} {l : List α} {r : List β} (h : mapE f l.zipIdx = .ok r) :
    r.length = l.length ∧ ∀ j a, l[j]? = some a → ∃ b, r[j]? = some b ∧ f (a, j) = .ok b := by
  have hF := mapE_ok_iff.mp h
  have hlen := hF.length_eq
  rw [List.length_zipIdx] at hlen
  refine ⟨hlen.symm, fun j a ha => ?_⟩
  obtain ⟨hj, ha'⟩ := List.getElem?_eq_some_iff.mp ha
  have hj' : j < r.length := by omega
  refine ⟨r[j], List.getElem?_eq_getElem hj', ?_⟩
  have := (List.forall₂_iff_get.mp hF).2 j (by rw [List.length_zipIdx]; exact hj) hj'
  simpa [ha'] using this

/-- The first of the positions whose dataset has the code of the entry. -/
def groupIndex (data : List Dataset) (done : List ℕ) (s : Exchange) : Option ℕ :=
  done.find? fun i => decide (s.code.isSome ∧ (data[i]?.bind (·.code)) = s.code)

/-- Overwrite the volume. -/
def setVolume (v : ℚ) (s : Exchange) : Exchange := { s with pv := some { amount := v } }

/-- The members that have been processed, their volumes, applied to one entry. -/
def refresh (data : List Dataset) (V : ℕ → ℚ) (done : List ℕ) (s : Exchange) : Exchange :=
  (groupIndex data done s).elim s fun i => setVolume (V i) s

theorem mem_positionsOf {kind : DsType} {data : List Dataset} {i : ℕ} :
    i ∈ positionsOf kind data ↔ ∃ d, data[i]? = some d ∧ d.type = kind := by
  unfold positionsOf
  simp only [List.mem_map, List.mem_filter]
  constructor
  · rintro ⟨⟨d, j⟩, ⟨hm, ht⟩, rfl⟩
    exact ⟨d, List.mem_zipIdx_iff_getElem?.mp hm, by simpa using ht⟩
  · rintro ⟨d, hd, ht⟩
    exact ⟨(d, i), ⟨List.mem_zipIdx_iff_getElem?.mpr hd, by simpa using ht⟩, rfl⟩

theorem positionsOf_nodup (kind : DsType) (data : List Dataset) : (positionsOf kind data).Nodup := by
  unfold positionsOf
  have h : (data.zipIdx.map (·.2)).Nodup := by
    rw [List.zipIdx_map_snd]
    exact List.nodup_range'
  exact h.sublist (List.filter_sublist.map _)

theorem refresh_code (data : List Dataset) (V : ℕ → ℚ) (done : List ℕ) (s : Exchange) :
    (refresh data V done s).code = s.code := by
  unfold refresh
  cases groupIndex data done s <;> rfl

theorem mapE_propagate {code : Option String} {v : ℚ} {l r : List Exchange} (h : mapE (propagateVolume code v) l = .ok r) :
    r = l.map fun s => if s.code = code then setVolume v s else s := by
  have := forall₂_map_eq' (mapE_ok_iff.mp h) (p := fun s => if s.code = code then setVolume v s else s) (q := fun x => x) (by
    intro s s' hs
    unfold propagateVolume at hs
    obtain ⟨c, hc, hs⟩ := bind_eq_ok.mp hs
    obtain ⟨d, hd, hs⟩ := bind_eq_ok.mp hs
    cases hs
    have hiff : s.code = code ↔ c = d := by rw [getKey_eq_ok.mp hc, getKey_eq_ok.mp hd]; simp
    by_cases hcd : c = d
    · rw [if_pos hcd, if_pos (hiff.mpr hcd)]; rfl
    · rw [if_neg hcd, if_neg (fun h => hcd (hiff.mp h))])
  rw [this]
  simp

theorem groupIndex_append (data : List Dataset) (pre : List ℕ) (i : ℕ) (s : Exchange) :
    groupIndex data (pre ++ [i]) s =
      (groupIndex data pre s).or (if s.code.isSome ∧ (data[i]?.bind (·.code)) = s.code then some i else none) := by
  unfold groupIndex
  rw [List.find?_append]
  congr 1
  by_cases h : s.code.isSome ∧ (data[i]?.bind (·.code)) = s.code
  · rw [if_pos h, List.find?_cons_of_pos (by simpa using h)]
  · rw [if_neg h, List.find?_cons_of_neg (by simpa using h), List.find?_nil]

theorem groupIndex_some {data : List Dataset} {pre : List ℕ} {s : Exchange} {k : ℕ} (h : groupIndex data pre s = some k) :
    k ∈ pre ∧ s.code.isSome ∧ (data[k]?.bind (·.code)) = s.code := by
  have hk := List.find?_some h
  have hkm := List.mem_of_find?_eq_some h
  exact ⟨hkm, of_decide_eq_true hk⟩

theorem groupAt_of_position {data : List Dataset} {k : ℕ} {c : String} (hk : k ∈ positionsOf .marketGroup data)
    (hc : (data[k]?.bind (·.code)) = some c) : GroupAt data k c := by
  obtain ⟨d, hd, ht⟩ := mem_positionsOf.mp hk
  rw [hd] at hc
  exact ⟨d, hd, ht, hc⟩

/-- One processed step on the volumes of one entry. -/
theorem refresh_step {data : List Dataset} {V : ℕ → ℚ} {pre : List ℕ} {i : ℕ} {v : ℚ} {c : String} {s : Exchange}
    (hu : OwnCodes data) (hpre : ∀ k ∈ pre, k ∈ positionsOf .marketGroup data) (hi : i ∈ positionsOf .marketGroup data)
    (hni : i ∉ pre) (hc : (data[i]?.bind (·.code)) = some c) :
    (if (refresh data V pre s).code = some c then setVolume v (refresh data V pre s) else refresh data V pre s) =
      refresh data (Function.update V i v) (pre ++ [i]) s := by
  rw [refresh_code]
  unfold refresh
  rw [groupIndex_append, hc]
  rcases hf : groupIndex data pre s with _ | k
  · by_cases hsc : s.code = some c
    · rw [if_pos hsc, if_pos ⟨by simp [hsc], hsc.symm⟩]
      simp
    · rw [if_neg hsc, if_neg fun h => hsc h.2.symm]
      rfl
  · obtain ⟨hkm, hk1, hk2⟩ := groupIndex_some hf
    have hne : k ≠ i := fun h => hni (h ▸ hkm)
    have hsc : s.code ≠ some c := by
      intro h
      rw [h] at hk2
      exact hne (hu.2 k i c (groupAt_of_position (hpre k hkm) hk2) (groupAt_of_position hi hc))
    rw [if_neg hsc]
    simp [Function.update_of_ne hne]

theorem refresh_skip {data : List Dataset} {V V' : ℕ → ℚ} {pre : List ℕ} {i : ℕ} {s : Exchange}
    (hV : ∀ k ∈ pre, V k = V' k) (h : ¬ (s.code.isSome ∧ (data[i]?.bind (·.code)) = s.code)) :
    refresh data V' (pre ++ [i]) s = refresh data V pre s := by
  unfold refresh
  rw [groupIndex_append, if_neg h, Option.or_none]
  rcases hf : groupIndex data pre s with _ | k
  · rfl
  · simp [hV k (groupIndex_some hf).1]

theorem refs_netSupply (sup : List Exchange) (l : List Exchange) :
    (l.map (netSupply sup)).filter (fun e => e.type == .referenceProduct) =
      (l.filter fun e => e.type == .referenceProduct).map (netSupply sup) := by
  rw [List.filter_map]
  congr 1
  apply List.filter_congr
  intro e _
  simp only [Function.comp, netSupply]
  split <;> simp_all

/-- The state of position `j` once the positions in `done` have been processed with the volumes `V`. -/
def groupAfter (data : List Dataset) (V : ℕ → ℚ) (done : List ℕ) (j : ℕ) (a : Dataset) (sup : List Exchange) : Dataset :=
  { a with suppliers := some (sup.map (refresh data V done)), exchanges := if j ∈ done then a.exchanges.map (netSupply (sup.map (refresh data V done))) else a.exchanges }

/-- The invariant of the loop. -/
def GroupInv (data : List Dataset) (done : List ℕ) (st : List Dataset) : Prop :=
  st.length = data.length ∧ ∃ V : ℕ → ℚ, (∀ i ∈ done, V i = finalVolume st i) ∧
    ∀ j a, data[j]? = some a →
      if a.type = .marketGroup then
        (done = [] ∧ st[j]? = some a) ∨ ∃ sup, a.suppliers = some sup ∧ st[j]? = some (groupAfter data V done j a sup)
      else st[j]? = some a

theorem groupAfter_nil (data : List Dataset) (V : ℕ → ℚ) (j : ℕ) (a : Dataset) (sup : List Exchange) (h : a.suppliers = some sup) :
    groupAfter data V [] j a sup = a := by
  have : refresh data V [] = id := by funext s; rfl
  unfold groupAfter
  rw [this, List.map_id, if_neg (by simp), ← h]

theorem finalVolume_of {st : List Dataset} {i : ℕ} {d : Dataset} (h : st[i]? = some d) :
    finalVolume st i = (productionVolume d).getD 0 := by
  unfold finalVolume; rw [h]; rfl

theorem productionVolume_congr {a b : Dataset} (h : a.exchanges = b.exchanges) : productionVolume a = productionVolume b := by
  unfold productionVolume referenceProducts; rw [h]

theorem groupStep_inv {data : List Dataset} (hu : OwnCodes data) {pre : List ℕ} {i : ℕ} {st st' : List Dataset}
    (hpre : ∀ k ∈ pre, k ∈ positionsOf .marketGroup data) (hi : i ∈ positionsOf .marketGroup data) (hni : i ∉ pre)
    (hac : ∀ j ∈ pre ++ [i], ∀ b sup, data[j]? = some b → b.suppliers = some sup → ∀ s ∈ sup,
      ¬ (s.code.isSome ∧ (data[i]?.bind (·.code)) = s.code))
    (hI : GroupInv data pre st) (h : updateGroupStep (positionsOf .marketGroup data) st i = .ok st') :
    GroupInv data (pre ++ [i]) st' := by
  obtain ⟨hlen, V, hV, hst⟩ := hI
  obtain ⟨a, ha, hat⟩ := mem_positionsOf.mp hi
  have hcs := hu.1 a (List.mem_of_getElem? ha) hat
  obtain ⟨c, hc⟩ := Option.isSome_iff_exists.mp hcs
  have hci : (data[i]?.bind (·.code)) = some c := by rw [ha]; exact hc
  have hiI := hst i a ha
  rw [if_pos hat] at hiI
  -- the dataset being processed
  obtain ⟨ds, hds, hdsa⟩ : ∃ ds, st[i]? = some ds ∧ ((pre = [] ∧ ds = a) ∨ ∃ sup, a.suppliers = some sup ∧ ds = groupAfter data V pre i a sup) := by
    rcases hiI with ⟨h1, h2⟩ | ⟨sup, h1, h2⟩
    · exact ⟨a, h2, Or.inl ⟨h1, rfl⟩⟩
    · exact ⟨_, h2, Or.inr ⟨sup, h1, rfl⟩⟩
  unfold updateGroupStep at h
  rw [hds] at h
  obtain ⟨ds', hup, h⟩ := bind_eq_ok.mp h
  obtain ⟨sup₁, r, p, hsup₁, -, -, -, hds'⟩ := updateMarketVolume_ok hup
  obtain ⟨sup, hsup, rfl⟩ : ∃ sup, a.suppliers = some sup ∧ ds = groupAfter data V pre i a sup := by
    rcases hdsa with ⟨rfl, rfl⟩ | h
    · exact ⟨sup₁, hsup₁, (groupAfter_nil data V i ds sup₁ hsup₁).symm⟩
    · exact h
  have hs1 : sup₁ = sup.map (refresh data V pre) := by
    unfold groupAfter at hsup₁
    exact (Option.some.inj hsup₁).symm
  subst hs1
  set v := (productionVolume ds').getD 0 with hv
  obtain ⟨hl', hz⟩ := mapE_zipIdx h
  have hl1 : (st.set i ds').length = data.length := by rw [List.length_set, hlen]
  have hil : i < st.length := (List.getElem?_eq_some_iff.mp hds).1
  have hset : (st.set i ds')[i]? = some ds' := by simp [hil]
  have hne : ∀ j, j ≠ i → (st.set i ds')[j]? = st[j]? := fun j hj => List.getElem?_set_ne (Ne.symm hj)
  have hcode' : ds'.code = some c := by rw [hds']; exact hc
  have hsti : st'[i]? = some ds' := by
    obtain ⟨b, hb, hfb⟩ := hz i ds' hset
    unfold propagateTo at hfb
    rw [if_neg (by simp)] at hfb
    cases hfb; exact hb
  have hrV : ∀ j ∈ pre ++ [i], ∀ b sup, data[j]? = some b → b.suppliers = some sup →
      sup.map (refresh data (Function.update V i v) (pre ++ [i])) = sup.map (refresh data V pre) := by
    intro j hj b sup hb hs
    apply List.map_congr_left
    intro s hss
    apply refresh_skip _ (hac j hj b sup hb hs s hss)
    intro k hk
    have hki : k ≠ i := fun h => hni (h ▸ hk)
    rw [Function.update_of_ne hki]
  have hother : ∀ j x, j ≠ i → st[j]? = some x → ∃ x', st'[j]? = some x' ∧ x'.exchanges = x.exchanges := by
    intro j x hj hx
    obtain ⟨b, hb, hfb⟩ := hz j x (by rw [hne j hj]; exact hx)
    refine ⟨b, hb, ?_⟩
    unfold propagateTo at hfb
    split at hfb
    · obtain ⟨s, -, hfb⟩ := bind_eq_ok.mp hfb
      obtain ⟨s', -, hfb⟩ := bind_eq_ok.mp hfb
      cases hfb; rfl
    · cases hfb; rfl
  refine ⟨by rw [hl', hl1], Function.update V i v, ?_, ?_⟩
  · intro k hk
    rcases List.mem_append.mp hk with hk | hk
    · have hki : k ≠ i := fun h => hni (h ▸ hk)
      rw [Function.update_of_ne hki, hV k hk]
      obtain ⟨b, hb, -⟩ := mem_positionsOf.mp (hpre k hk)
      have hkl : k < st.length := by rw [hlen]; exact (List.getElem?_eq_some_iff.mp hb).1
      obtain ⟨x', hx', he⟩ := hother k st[k] hki (List.getElem?_eq_getElem hkl)
      rw [finalVolume_of hx', finalVolume_of (List.getElem?_eq_getElem hkl), productionVolume_congr he]
    · have : k = i := by simpa using hk
      subst this
      rw [Function.update_self, finalVolume_of hsti]
  · intro j b hb
    have hjI := hst j b hb
    by_cases hji : j = i
    · subst hji
      rw [ha] at hb
      cases hb
      rw [if_pos hat]
      refine Or.inr ⟨sup, hsup, ?_⟩
      rw [hsti, hds']
      unfold groupAfter
      rw [if_neg hni, if_pos (by simp), hrV j (by simp) a sup ha hsup]
    · by_cases hbt : b.type = .marketGroup
      · rw [if_pos hbt] at hjI ⊢
        have hjm : j ∈ positionsOf .marketGroup data := mem_positionsOf.mpr ⟨b, hb, hbt⟩
        obtain ⟨x, hx, hxb⟩ : ∃ x, st[j]? = some x ∧ ((pre = [] ∧ x = b) ∨ ∃ sup, b.suppliers = some sup ∧ x = groupAfter data V pre j b sup) := by
          rcases hjI with ⟨h1, h2⟩ | ⟨sup, h1, h2⟩
          · exact ⟨b, h2, Or.inl ⟨h1, rfl⟩⟩
          · exact ⟨_, h2, Or.inr ⟨sup, h1, rfl⟩⟩
        have hxc : x.code = b.code := by
          rcases hxb with ⟨-, rfl⟩ | ⟨s, -, rfl⟩ <;> rfl
        have hxd : x ≠ ds' := by
          intro hxd
          rw [hxd, hcode'] at hxc
          exact hji (hu.2 j i c ⟨b, hb, hbt, hxc.symm⟩ ⟨a, ha, hat, hc⟩)
        obtain ⟨y, hy, hfy⟩ := hz j x (by rw [hne j hji]; exact hx)
        unfold propagateTo at hfy
        rw [if_pos ⟨hjm, hxd⟩] at hfy
        obtain ⟨sx, hsx, hfy⟩ := bind_eq_ok.mp hfy
        obtain ⟨sy, hsy, hfy⟩ := bind_eq_ok.mp hfy
        cases hfy
        have hsx := getKey_eq_ok.mp hsx
        obtain ⟨supb, hsupb, rfl⟩ : ∃ sup, b.suppliers = some sup ∧ x = groupAfter data V pre j b sup := by
          rcases hxb with ⟨rfl, rfl⟩ | h
          · exact ⟨sx, hsx, (groupAfter_nil data V j x sx hsx).symm⟩
          · exact h
        have hsx' : sx = supb.map (refresh data V pre) := (Option.some.inj hsx).symm
        subst hsx'
        refine Or.inr ⟨supb, hsupb, ?_⟩
        rw [hy]
        have hsy' : sy = supb.map (refresh data (Function.update V i v) (pre ++ [i])) := by
          have := mapE_propagate hsy
          rw [this, List.map_map]
          apply List.map_congr_left
          intro s _
          simp only [Function.comp, hcode']
          exact refresh_step hu hpre hi hni hci
        rw [hsy']
        unfold groupAfter
        by_cases hjp : j ∈ pre
        · rw [if_pos hjp, if_pos (by simp [hjp]), hrV j (by simp [hjp]) b supb hb hsupb]
        · rw [if_neg hjp, if_neg (by simp [hjp, hji])]
      · rw [if_neg hbt] at hjI ⊢
        have hjm : j ∉ positionsOf .marketGroup data := by
          intro hm
          obtain ⟨d, hd, hdt⟩ := mem_positionsOf.mp hm
          rw [hb] at hd; cases hd; exact hbt hdt
        obtain ⟨y, hy, hfy⟩ := hz j b (by rw [hne j hji]; exact hjI)
        unfold propagateTo at hfy
        rw [if_neg fun h => hjm h.1] at hfy
        cases hfy; exact hy

theorem groupOrder_ok {T : Topology} {data : List Dataset} {order : List ℕ} (h : groupOrder T data = .ok order) :
    ∃ ordered, T.orderedDependencies ((data.filter fun ds => ds.type == .marketGroup).map (·.location)) none = .ok ordered ∧
      order.Perm (positionsOf .marketGroup data) ∧
      order.Pairwise fun i j => sizeRank ordered data j ≤ sizeRank ordered data i := by
  unfold groupOrder at h
  obtain ⟨ordered, ho, h⟩ := bind_eq_ok.mp h
  cases h
  refine ⟨ordered, ho, List.perm_insertionSort _ _, ?_⟩
  have htot : Std.Total fun i j => sizeRank ordered data j ≤ sizeRank ordered data i := ⟨fun i j => le_total _ _⟩
  have htr : IsTrans ℕ fun i j => sizeRank ordered data j ≤ sizeRank ordered data i := ⟨fun i j k h1 h2 => le_trans h2 h1⟩
  exact List.pairwise_insertionSort _ _

theorem ordered_faces {T : Topology} (hT : WellFormed T) {locations : List String} {row : Option (Finset ℕ)} {out : List String}
    (h : T.orderedDependencies locations row = .ok out) {s : String} (hs : s ∈ locations) : ∃ f, SortFaces T row s f := by
  unfold Topology.orderedDependencies at h
  obtain ⟨keys, hk, -⟩ := bind_eq_ok.mp h
  have hm : s ∈ sortNames locations.dedup := (sortNames_perm _).mem_iff.mpr (List.mem_dedup.mpr hs)
  obtain ⟨k, -, hk⟩ := forall₂_mem_left (mapE_ok_iff.mp hk) hm
  obtain ⟨f, hf, -⟩ := sizeKey_ok hT hk
  exact ⟨f, hf⟩

/-- In the size order, no location is before itself or before one that precedes it. -/
theorem not_before {T : Topology} (hT : WellFormed T) {locations : List String} {row : Option (Finset ℕ)} {out : List String}
    (h : T.orderedDependencies locations row = .ok out) {x y : String} (hx : x ∈ locations) (hy : y ∈ locations)
    (hle : out.idxOf y ≤ out.idxOf x) : ¬ Before T row x y := by
  obtain ⟨hnd, hm, hpw⟩ := C36_order T hT locations row out h
  obtain ⟨fx, hfx⟩ := ordered_faces hT h hx
  obtain ⟨fy, hfy⟩ := ordered_faces hT h hy
  intro hb
  have hxl := List.idxOf_lt_length_iff.mpr ((hm x).mpr hx)
  have hyl := List.idxOf_lt_length_iff.mpr ((hm y).mpr hy)
  rcases Nat.lt_or_eq_of_le hle with hlt | heq
  · have hb' := List.pairwise_iff_getElem.mp hpw _ _ hyl hxl hlt
    rw [List.getElem_idxOf, List.getElem_idxOf] at hb'
    have h1 := hb fx fy hfx hfy
    have h2 := hb' fy fx hfy hfx
    rcases h1 with h1 | ⟨h1, h1'⟩ <;> rcases h2 with h2 | ⟨h2, h2'⟩
    · exact absurd h1 (lt_asymm h2)
    · rw [h2] at h1; exact lt_irrefl _ h1
    · rw [h1] at h2; exact lt_irrefl _ h2
    · exact lt_asymm h1' h2'
  · have hxy : x = y := by
      have e1 := List.getElem_idxOf hxl
      have e2 := List.getElem_idxOf hyl
      rw [← e1, ← e2]
      congr 1
      exact heq.symm
    subst hxy
    rcases hb fx fx hfx hfx with h1 | ⟨-, h1⟩
    · exact lt_irrefl _ h1
    · exact lt_irrefl _ h1

/-- C44: nested market groups end up consistent: every supplier entry that refers to a market group shows this
group's final volume, every market group's volume is the net sum of its final supplier entries, and all other
datasets are unchanged, whenever suppliers are smaller than the groups they supply. -/
theorem C44_consistent (T : Topology) (hT : WellFormed T) (data out : List Dataset) (hu : OwnCodes data)
    (hs : SmallerFirst T data) (h : updateMarketProductionVolumes T .marketGroup data = .ok out) :
    out.length = data.length ∧ ∀ (j : ℕ) (b : Dataset), data[j]? = some b →
      if b.type = .marketGroup then
        ∃ sup sup', b.suppliers = some sup ∧ List.Forall₂ (UpToDate data out) sup sup' ∧
          out[j]? = some { b with suppliers := some sup', exchanges := b.exchanges.map (netSupply sup') }
      else out[j]? = some b := by
  unfold updateMarketProductionVolumes at h
  rw [if_pos rfl] at h
  obtain ⟨order, ho, h⟩ := bind_eq_ok.mp h
  obtain ⟨ordered, hord, hperm, hpw⟩ := groupOrder_ok ho
  have hnd : order.Nodup := hperm.nodup_iff.mpr (positionsOf_nodup _ _)
  have hmem : ∀ i ∈ order, i ∈ positionsOf .marketGroup data := fun i hi => hperm.mem_iff.mp hi
  have hloc : ∀ (i : ℕ) (a : Dataset), data[i]? = some a → a.type = .marketGroup → a.location ∈ (data.filter fun ds => ds.type == .marketGroup).map (·.location) := by
    intro i a ha hat
    exact List.mem_map.mpr ⟨a, List.mem_filter.mpr ⟨List.mem_of_getElem? ha, by simp [hat]⟩, rfl⟩
  have hinv := foldE_inv' (I := GroupInv data) h (by
    refine ⟨rfl, fun _ => 0, by simp, fun j a ha => ?_⟩
    split
    · exact Or.inl ⟨rfl, ha⟩
    · exact ha) (by
    intro pre i post st st' hl hI hstep
    have hi : i ∈ order := by rw [hl]; simp
    have hni : i ∉ pre := by
      intro hm
      rw [hl] at hnd
      exact (List.nodup_append.mp hnd).2.2 i hm i (by simp) rfl
    refine groupStep_inv hu (fun k hk => hmem k (by rw [hl]; simp [hk])) (hmem i hi) hni ?_ hI hstep
    intro j hj b sup hb hsup s hss ⟨hc1, hc2⟩
    obtain ⟨c, hc⟩ := Option.isSome_iff_exists.mp hc1
    rw [hc] at hc2
    obtain ⟨a, ha, hat⟩ := mem_positionsOf.mp (hmem i hi)
    have hjo : j ∈ order := by
      rw [hl]
      rcases List.mem_append.mp hj with hj | hj
      · simp [hj]
      · simp at hj; simp [hj]
    obtain ⟨b', hb', hbt⟩ := mem_positionsOf.mp (hmem j hjo)
    rw [hb] at hb'
    cases hb'
    have hbef := hs i j a b c ha hb hbt (groupAt_of_position (hmem i hi) hc2) ⟨sup, s, hsup, hss, hc⟩
    refine not_before hT hord (hloc j b hb hbt) (hloc i a ha hat) ?_ hbef
    have hrank : sizeRank ordered data i ≤ sizeRank ordered data j := by
      rcases List.mem_append.mp hj with hj | hj
      · rw [hl] at hpw
        exact (List.pairwise_append.mp hpw).2.2 j hj i (by simp)
      · simp at hj; rw [hj]
    unfold sizeRank at hrank
    rw [ha, hb] at hrank
    exact hrank)
  obtain ⟨hlen, V, hV, hst⟩ := hinv
  refine ⟨hlen, fun j b hb => ?_⟩
  have := hst j b hb
  by_cases hbt : b.type = .marketGroup
  · rw [if_pos hbt] at this ⊢
    have hjo : j ∈ order := hperm.mem_iff.mpr (mem_positionsOf.mpr ⟨b, hb, hbt⟩)
    rcases this with ⟨h1, -⟩ | ⟨sup, hsup, hout⟩
    · rw [h1] at hjo; cases hjo
    · refine ⟨sup, sup.map (refresh data V order), hsup, ?_, ?_⟩
      · rw [List.forall₂_map_right_iff, List.forall₂_same]
        intro s _
        constructor
        · intro i c hc hi
          have hio : i ∈ order := by
            obtain ⟨d, hd, hdt, -⟩ := hi
            exact hperm.mem_iff.mpr (mem_positionsOf.mpr ⟨d, hd, hdt⟩)
          obtain ⟨k, hk⟩ : ∃ k, groupIndex data order s = some k := by
            apply Option.isSome_iff_exists.mp
            unfold groupIndex
            rw [List.find?_isSome]
            obtain ⟨d, hd, -, hdc⟩ := hi
            exact ⟨i, hio, by rw [hd]; simp [hdc, hc]⟩
          obtain ⟨hk1, hk2, hk3⟩ := groupIndex_some hk
          have hki : k = i := hu.2 k i c (groupAt_of_position (hmem k hk1) (by rw [hk3, hc])) hi
          unfold refresh
          rw [hk, hki]
          simp only [Option.elim_some, setVolume, hV i hio]
        · intro hno
          unfold refresh
          rcases hg : groupIndex data order s with _ | k
          · rfl
          · obtain ⟨hk1, hk2, hk3⟩ := groupIndex_some hg
            obtain ⟨c, hc⟩ := Option.isSome_iff_exists.mp hk2
            exact absurd (groupAt_of_position (hmem k hk1) (by rw [hk3, hc])) (hno k c hc)
      · rw [hout]
        unfold groupAfter
        rw [if_pos hjo]
  · rw [if_neg hbt] at this ⊢
    exact this

/-- A market group `RER` supplied by the market group `UCTE` (inside it) and by a market. -/
def exampleGroups : List Dataset :=
  [{ name := "g", location := "RER", type := .marketGroup, code := some "r", suppliers := some [{ name := "p", type := .referenceProduct, amount := 1, code := some "u", pv := some { amount := 1 } }, { name := "p", type := .referenceProduct, amount := 1, code := some "m", pv := some { amount := 7 } }], exchanges := [{ name := "p", type := .referenceProduct, amount := 1, pv := some { amount := 0 } }] }, { name := "g", location := "UCTE", type := .marketGroup, code := some "u", suppliers := some [{ name := "p", type := .referenceProduct, amount := 1, code := some "n", pv := some { amount := 5 } }], exchanges := [{ name := "p", type := .referenceProduct, amount := 1, pv := some { amount := 0 } }] }]

/-- Its topology. -/
def exampleGroupTopology : Topology := { data := [("GLO", {1, 2, 3}), ("RER", {1, 2}), ("UCTE", {1})] }

example : WellFormed exampleGroupTopology := by constructor <;> decide +kernel
example : OwnCodes exampleGroups := by
  constructor
  · decide +kernel
  · rintro i j c ⟨d, hd, hdt, hdc⟩ ⟨d', hd', hdt', hdc'⟩
    rcases i with _ | _ | i <;> rcases j with _ | _ | j <;> simp [exampleGroups] at hd hd' <;> subst hd hd' <;>
      simp only [Option.some.injEq] at hdc hdc' <;> first | rfl | exact absurd (hdc.trans hdc'.symm) (by decide)
example : SmallerFirst exampleGroupTopology exampleGroups := by
  intro i j a b c ha hb hbt hg hex
  obtain ⟨d, hd, hdt, hdc⟩ := hg
  obtain ⟨sup, s, hsup, hs, hsc⟩ := hex
  rw [ha] at hd
  cases hd
  rcases i with _ | _ | i <;> rcases j with _ | _ | j <;> simp [exampleGroups] at ha hb <;> subst ha hb <;>
    simp only [Option.some.injEq] at hsup hdc <;> subst hsup hdc <;> simp at hs
  · rcases hs with rfl | rfl <;> simp at hsc
  · subst hs; simp at hsc
  · intro fa fb hfa hfb
    left
    simp only [SortFaces, HasFaces, exampleGroupTopology, show ("RER" : String) ≠ "RoW" by decide, show ("UCTE" : String) ≠ "RoW" by decide, if_false] at hfa hfb
    simp at hfa hfb
    subst hfa hfb
    decide +kernel
  · subst hs; simp at hsc
example : (updateMarketProductionVolumes exampleGroupTopology .marketGroup exampleGroups).map (fun l => l.map productionVolume) =
    .ok [some 12, some 5] := by decide +kernel

end Ocelot
