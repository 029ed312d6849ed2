import Verif.Proofs.ProgressInput
import Verif.Proofs.AnyProduction

/-! # Activities with several products -/

namespace Ocelot
open Spec

namespace Progress

/-! ## Numbers -/

theorem scale_bent {M : MathEnv} {o o' : NumObj} {f : ℚ} (h : o.scale M f = .ok o') (hn : ¬ IsUniform o) : ¬ IsUniform o' := by
  unfold NumObj.scale at h
  split at h
  · cases h; exact hn
  split at h
  · next hu =>
    cases h
    rintro ⟨u, h1, -⟩
    dsimp only at h1
    rw [hu] at h1; cases h1
  · next u hu =>
    have hkind : ∀ {v w : Unc} {m : NumObj}, v.kind ≠ some .uniform → ¬ IsUniform { m with uncertainty := some v } := by
      rintro v w m hv ⟨u', h1, h2⟩
      cases h1
      exact hv h2
    split at h
    · cases h
      exact fun hc => hn hc
    · next hk =>
      unfold undefinedRescale at h
      obtain ⟨_, -, h⟩ := bind_eq_ok.mp h
      obtain ⟨_, -, h⟩ := bind_eq_ok.mp h
      cases h
      rintro ⟨u', h1, h2⟩
      cases h1
      dsimp only at h2
      rw [hk] at h2; cases h2
    · next hk =>
      have hpos : ∀ {p : NumObj} {v : Unc} {g : ℚ}, v.kind = some .lognormal → lognormalRescalePos M p v g = .ok o' → ¬ IsUniform o' := by
        intro p v g hv hh
        unfold lognormalRescalePos at hh
        dsimp only at hh
        split at hh
        · cases hh
        · cases hh
          rintro ⟨u', h1, h2⟩
          cases h1
          dsimp only at h2
          rw [hv] at h2; cases h2
      unfold lognormalRescale at h
      split at h
      · exact hpos (by exact hk) h
      · split at h
        · cases h
          rintro ⟨u', h1, -⟩
          cases h1
        · exact hpos hk h
    · next hk =>
      unfold normalRescale at h
      split at h
      · cases h
        rintro ⟨u', h1, -⟩
        cases h1
      · split at h
        · cases h
        · obtain ⟨_, -, h⟩ := bind_eq_ok.mp h
          cases h
          rintro ⟨u', h1, h2⟩
          cases h1
          dsimp only at h2
          rw [hk] at h2; cases h2
    · next hk =>
      unfold triangularRescale at h
      obtain ⟨a, -, h⟩ := bind_eq_ok.mp h
      obtain ⟨m, -, h⟩ := bind_eq_ok.mp h
      obtain ⟨b, -, h⟩ := bind_eq_ok.mp h
      obtain ⟨o2, h1, -, h2⟩ := triangularRepair_steady (o := { o with amount := o.amount * f, uncertainty := some { u with minimum := some (a * f), mode := some (m * f), maximum := some (b * f) } }) (u := { u with minimum := some (a * f), mode := some (m * f), maximum := some (b * f) }) hk rfl rfl
      rw [h1] at h
      cases h
      exact h2
    · next hk => exact absurd ⟨u, hu, hk⟩ hn
    · cases h

/-- The number of the exchange can be scaled, and its sign changed if it is a byproduct. -/
def Firm (e : Exchange) : Prop := Steady e.toNumObj ∧ (e.type = .byproduct → ¬ IsUniform e.toNumObj)

theorem firm_certain {e : Exchange} (h : e.uncertainty = none) : Firm e :=
  ⟨steady_certain h, fun _ ⟨u, hu, _⟩ => by rw [h] at hu; cases hu⟩

theorem firm_scale (M : MathEnv) {e : Exchange} (h : Firm e) (f : ℚ) : ∃ e', scaleExchange M e f = .ok e' ∧ Firm e' := by
  obtain ⟨o, h1, h2⟩ := scale_steady M h.1 f
  unfold scaleExchange
  rw [h1]
  exact ⟨_, rfl, h2, fun ht => scale_bent h1 (h.2 ht)⟩

theorem firm_all (M : MathEnv) {l : List Exchange} (h : ∀ e ∈ l, Firm e) (f : ℚ) :
    ∃ r, mapE (fun e => scaleExchange M e f) l = .ok r ∧ ∀ e ∈ r, Firm e := by
  obtain ⟨r, hr⟩ := mapE_ok_of_forall fun e he => ⟨_, (firm_scale M (h e he) f).choose_spec.1⟩
  refine ⟨r, hr, fun e' he' => ?_⟩
  obtain ⟨e, he, hee⟩ := mapE_mem hr he'
  obtain ⟨e2, h1, h2⟩ := firm_scale M (h e he) f
  rw [h1] at hee
  cases hee
  exact h2

/-! ## Choosing one product -/

theorem choose_total (M : MathEnv) {d : Dataset} (hc : Classified d) {x : Exchange} (hx : x.amount ≠ 0) (hn : ∀ e ∈ nonproduction d, Firm e) (f : ℚ) :
    ∃ out, chooseReferenceProduct M d x f = .ok out ∧ ∀ e ∈ out.exchanges, Firm e := by
  unfold chooseReferenceProduct
  simp only [if_neg hx]
  rw [allocatableProduction_ok hc, ebind_ok, nonproductionExchanges_ok hc, ebind_ok]
  obtain ⟨sc, hsc, hf⟩ := firm_all M hn f
  rw [hsc, ebind_ok]
  set ex := [chosenProduct x] ++ ((production d).filter fun e => e != x).map nonreferenceProduct ++ sc with hex
  have hfirm : ∀ e ∈ ex, Firm e := by
    intro e he
    simp only [hex, List.mem_append, List.mem_singleton, List.mem_map] at he
    rcases he with (rfl | ⟨a, -, rfl⟩) | he
    · exact firm_certain rfl
    · exact firm_certain rfl
    · exact hf e he
  have hrefs : refs { d with exchanges := ex } = [chosenProduct x] := by
    unfold refs
    simp only [hex, List.filter_append]
    have h1 : (((production d).filter fun e => e != x).map nonreferenceProduct).filter (fun e => e.type == .referenceProduct) = [] := by
      rw [List.filter_eq_nil_iff]
      intro e he
      obtain ⟨a, -, rfl⟩ := List.mem_map.mp he
      simp [nonreferenceProduct]
    have h2 : sc.filter (fun e => e.type == .referenceProduct) = [] := by
      rw [List.filter_eq_nil_iff]
      intro e he
      obtain ⟨a, ha, hae⟩ := mapE_mem hsc he
      rw [(scaleExchange_scaled hae).type]
      have := (List.mem_filter.mp ha).2
      intro hr
      rw [isProduction_ref (by simpa using hr)] at this
      cases this
    rw [h1, h2]
    simp [chosenProduct]
  unfold normalize
  rw [getSingle_ok.mpr hrefs, ebind_ok]
  simp only [if_neg (show (chosenProduct x).amount ≠ 0 from hx)]
  split
  · obtain ⟨r, hr, hfr⟩ := firm_all M hfirm (1 / |(chosenProduct x).amount|)
    rw [hr]
    exact ⟨_, rfl, hfr⟩
  · exact ⟨_, rfl, hfirm⟩

theorem akin_production {d d' : Dataset} (h : DsAkin d d') : List.Forall₂ Akin (production d) (production d') :=
  forall₂_filter_rel h.2 fun a b hab => by unfold isProduction; rw [hab.type, hab.cls]

theorem akin_nonproduction {d d' : Dataset} (h : DsAkin d d') : List.Forall₂ Akin (nonproduction d) (nonproduction d') :=
  forall₂_filter_rel h.2 fun a b hab => by unfold isProduction; rw [hab.type, hab.cls]

theorem nodup_inj {l : List Exchange} (h : (l.map (·.name)).Nodup) {a b : Exchange} (ha : a ∈ l) (hb : b ∈ l) (hn : a.name = b.name) : a = b :=
  List.inj_on_of_nodup_map h ha hb hn

/-- What allocation leaves of a dataset. -/
structure Result (d o : Dataset) : Prop where
  label : o.allocationMethod = d.allocationMethod
  one : (refs o).length = 1
  firm : ∀ e ∈ o.exchanges, Firm e

theorem choose_alike (M : MathEnv) {d d' : Dataset} (h : DsAkin d d') (hc : Classified d') (hnames : ((production d').map (·.name)).Nodup)
    {x x' : Exchange} (hx : x' ∈ production d') (hxx : Akin x x') (ha : x.amount ≠ 0) (hn : ∀ e ∈ nonproduction d', Firm e) (f : ℚ) :
    ∃ out, chooseReferenceProduct M d' x' f = .ok out ∧ DsAlike (only d x) out ∧ Result d' out := by
  have ha' : x'.amount ≠ 0 := by rw [hxx.amount]; exact ha
  obtain ⟨out, hout, hfirm⟩ := choose_total M hc ha' hn f
  refine ⟨out, hout, ?_, ?_⟩
  · obtain ⟨-, -, n, non, hn0, -, hS, rfl⟩ := C11_choose_shape M d' out x' f hout
    refine ⟨⟨h.1.name, h.1.type, h.1.location, h.1.id, h.1.parent, h.1.unit, h.1.startDate, h.1.endDate, h.1.suppliers, h.1.technologyLevel⟩, ?_⟩
    unfold only
    dsimp only
    rw [List.cons_append]
    refine List.Forall₂.cons ?_ (List.rel_append ?_ ?_)
    · refine ⟨rfl, hxx.name, rfl, fun _ => ?_, hxx.link, hxx.pv⟩
      show x'.amount * n = 0 ↔ x.amount = 0
      rw [hxx.amount]
      simp [hn0.ne']
    · rw [List.forall₂_map_left_iff, List.forall₂_map_right_iff]
      have hF : List.Forall₂ (fun a b => b ∈ production d' ∧ Akin a b) (production d) (production d') :=
        (forall₂_with_mem (akin_production h).flip).flip
      have hF2 : List.Forall₂ (fun a b => b ∈ production d' ∧ Akin a b) ((production d).filter fun e => e.name != x.name) ((production d').filter fun e => e != x') := by
        refine forall₂_filter_rel hF fun a b hab => ?_
        rw [Bool.eq_iff_iff, bne_iff_ne, bne_iff_ne, ne_eq, ne_eq, not_iff_not, ← hab.2.name, ← hxx.name]
        exact ⟨fun hh => nodup_inj hnames hab.1 hx hh, fun hh => by rw [hh]⟩
      refine hF2.imp fun a b hab => ?_
      exact ⟨rfl, hab.2.name, hab.2.cls, fun _ => Iff.rfl, hab.2.link, fun hh => by cases hh⟩
    · refine forall₂_trans' (forall₂_with_mem (akin_nonproduction h)) hS fun a b c hab hbc => ?_
      obtain ⟨hm, hab⟩ := hab
      have hcc : c = _ := hbc
      rw [hcc]
      refine ⟨hab.type, hab.name, hab.cls, fun hp => ?_, hab.link, hab.pv⟩
      have := (List.mem_filter.mp hm).2
      rw [hp] at this
      cases this
  · obtain ⟨rp, hr, -⟩ := C11_choose_reference M d' out x' f hout
    refine ⟨?_, by rw [hr]; rfl, hfirm⟩
    obtain ⟨-, -, n, non, -, -, -, rfl⟩ := C11_choose_shape M d' out x' f hout
    rfl

/-! ## The three methods -/

theorem akin_names {d d' : Dataset} (h : DsAkin d d') : (production d').map (·.name) = (production d).map (·.name) :=
  (forall₂_map_eq' (akin_production h) fun a b hab => hab.name.symm).symm

theorem akin_rev {e e' : Exchange} (h : Akin e e') : revenue e' = rev e := by
  unfold revenue rev price
  rw [show getNumericalProperty e' "price" = propValue e' "price" from rfl, pairs_value h.props, h.amount]

theorem akin_hasTv {e e' : Exchange} (h : Akin e e') : hasTrueValue e' = hasTv e := by
  unfold hasTv
  rw [← pairs_value h.props]
  unfold hasTrueValue propValue getPropertyByName
  rw [Option.isSome_map]

theorem akin_tv {e e' : Exchange} (h : Akin e e') : trueValue e' * e'.amount = tvWeight e := by
  unfold trueValue tvWeight
  rw [show getNumericalProperty e' "true value relation" = propValue e' "true value relation" from rfl, pairs_value h.props, h.amount]

theorem economic_total (M : MathEnv) {d d' : Dataset} (h : DsAkin d d') (hc : Classified d') (hnames : ((production d).map (·.name)).Nodup)
    (ha : ∀ e ∈ production d, e.amount ≠ 0) (hv : Valued (production d)) (hn : ∀ e ∈ nonproduction d', Firm e) :
    ∃ outs, economicAllocation M d' = .ok outs ∧ List.Forall₂ DsAlike ((production d).map (only d)) outs ∧ ∀ o ∈ outs, Result d' o := by
  have hF := akin_production h
  have hck : forE checkEconomicExchange (production d') = .ok () := by
    refine forE_ok_iff.mpr fun e' he' => ?_
    obtain ⟨e, he, hk⟩ := forall₂_mem_right hF he'
    obtain ⟨h1, p, h2, h3⟩ := hv.prices e he
    unfold checkEconomicExchange
    rw [show getNumericalProperty e' "price" = propValue e' "price" from rfl, pairs_value hk.props, h2]
    dsimp only
    rw [if_neg (not_lt.mpr h3), if_neg (by rw [hk.amount]; exact not_lt.mpr h1)]
  have hrev : (production d').map revenue = (production d).map rev := (forall₂_map_eq' hF fun a b hab => (akin_rev hab).symm).symm
  have htv : ((production d').map fun e => trueValue e * e.amount) = (production d).map tvWeight := (forall₂_map_eq' hF fun a b hab => (akin_tv hab).symm).symm
  obtain ⟨g, hg⟩ : ∃ g : Exchange → ℚ, economicFactors (production d') = .ok ((production d').map g) := by
    unfold economicFactors
    have h0 : production d' ≠ [] := by
      intro h0
      apply hv.revenue
      rw [← hrev, h0]; rfl
    rw [if_neg h0]
    dsimp only
    rw [hrev, if_neg hv.revenue, htv, if_neg]
    · exact ⟨_, rfl⟩
    · rintro ⟨h1, h2⟩
      obtain ⟨e', he', ht⟩ := List.any_eq_true.mp h1
      obtain ⟨e, he, hk⟩ := forall₂_mem_right hF he'
      exact hv.value ⟨e, he, by rw [← akin_hasTv hk]; exact ht⟩ h2
  have hnames' : ((production d').map (·.name)).Nodup := by rw [akin_names h]; exact hnames
  have hone : ∀ x ∈ production d, ∀ x' ∈ production d', Akin x x' → ∃ out, chooseReferenceProduct M d' x' (g x') = .ok out ∧ DsAlike (only d x) out ∧ Result d' out :=
    fun x hx x' hx' hxx => choose_alike M h hc hnames' hx' hxx (ha x hx) hn (g x')
  obtain ⟨outs, ho⟩ : ∃ outs, mapE (fun e => chooseReferenceProduct M d' e (g e)) (production d') = .ok outs := by
    refine mapE_ok_of_forall fun x' hx' => ?_
    obtain ⟨x, hx, hk⟩ := forall₂_mem_right hF hx'
    obtain ⟨out, h1, -⟩ := hone x hx x' hx' hk
    exact ⟨out, h1⟩
  refine ⟨outs, ?_, ?_, ?_⟩
  · unfold economicAllocation
    rw [allocatableProduction_ok hc, ebind_ok, hck, ebind_ok, hg, ebind_ok]
    unfold applyAllocationFactors
    have : ((production d').map g).zip (production d') = (production d').map fun e => (g e, e) := by
      conv_lhs => rw [← List.map_id (production d')]
      rw [List.map_map, List.zip_map']
      rfl
    rw [this, mapE_map]
    exact ho
  · rw [List.forall₂_map_left_iff]
    have h1 : List.Forall₂ (fun a b => a ∈ production d ∧ b ∈ production d' ∧ Akin a b) (production d) (production d') :=
      forall₂_with_mem ((forall₂_with_mem hF.flip).flip)
    refine forall₂_trans' h1 (mapE_ok_iff.mp ho) fun x x' o hx hxo => ?_
    obtain ⟨out, h2, h3, -⟩ := hone x hx.1 x' hx.2.1 hx.2.2
    rw [h2] at hxo
    cases hxo
    exact h3
  · intro o hoo
    obtain ⟨x', hx', hxo⟩ := mapE_mem ho hoo
    obtain ⟨x, hx, hk⟩ := forall₂_mem_right hF hx'
    obtain ⟨out, h2, -, h3⟩ := hone x hx x' hx' hk
    rw [h2] at hxo
    cases hxo
    exact h3

theorem waste_treatment_total (M : MathEnv) {d d' : Dataset} (h : DsAkin d d') (hc : Classified d') (hnames : ((production d).map (·.name)).Nodup)
    (ha : ∀ e ∈ production d, e.amount ≠ 0) (hn : ∀ e ∈ nonproduction d', Firm e) {r : Exchange} (hr : refs d = [r]) (hw : r.cls = some .waste)
    (hneg : r.amount < 0) :
    ∃ outs, wasteTreatmentAllocation M d' = .ok outs ∧
      List.Forall₂ DsAlike ((refs d).map (only d) ++ (coproducts d).map fun x => only { d with exchanges := [x] } x) outs ∧ ∀ o ∈ outs, Result d' o := by
  have hF := akin_production h
  obtain ⟨r', hr', hrk⟩ := akin_refs h hr
  have hnames' : ((production d').map (·.name)).Nodup := by rw [akin_names h]; exact hnames
  have hrp : r ∈ production d := by
    have : r ∈ refs d := by rw [hr]; simp
    obtain ⟨h1, h2⟩ := List.mem_filter.mp this
    exact List.mem_filter.mpr ⟨h1, isProduction_ref (by simpa using h2)⟩
  have hrp' : r' ∈ production d' := by
    have : r' ∈ refs d' := by rw [hr']; simp
    obtain ⟨h1, h2⟩ := List.mem_filter.mp this
    exact List.mem_filter.mpr ⟨h1, isProduction_ref (by simpa using h2)⟩
  obtain ⟨first, hf1, hf2, hf3⟩ := choose_alike M h hc hnames' hrp' hrk (ha r hrp) hn 1
  have hco : List.Forall₂ (fun a b => a ∈ coproducts d ∧ b ∈ production d' ∧ Akin a b) (coproducts d) ((production d').filter fun e => e.type != .referenceProduct) := by
    have h1 : List.Forall₂ (fun a b => b ∈ production d' ∧ Akin a b) (coproducts d) ((production d').filter fun e => e.type != .referenceProduct) := by
      refine forall₂_filter_rel (forall₂_with_mem hF.flip).flip fun a b hab => ?_
      have hp := (List.mem_filter.mp hab.1).2
      rw [← hab.2.type]
      unfold isProduction at hp
      rcases hb : b.type <;> simp_all
    exact forall₂_with_mem h1
  have hone : ∀ x x', x ∈ coproducts d → x' ∈ production d' → Akin x x' →
      ∃ out, freeByproduct M d' x' = .ok out ∧ DsAlike (only { d with exchanges := [x] } x) out ∧ Result d' out := by
    intro x x' hx hx' hxx
    have hxp := (List.mem_filter.mp hx).1
    have hp' : production { d' with exchanges := [x'] } = [x'] := by
      unfold production
      simp [(List.mem_filter.mp hx').2]
    have hnp' : nonproduction { d' with exchanges := [x'] } = [] := by
      unfold nonproduction
      simp [(List.mem_filter.mp hx').2]
    obtain ⟨out, h1, h2, h3⟩ := choose_alike M (d := { d with exchanges := [x] }) (d' := { d' with exchanges := [x'] })
      ⟨⟨h.1.name, h.1.type, h.1.location, h.1.id, h.1.parent, h.1.unit, h.1.startDate, h.1.endDate, h.1.suppliers, h.1.technologyLevel⟩, .cons hxx .nil⟩
      (by
        intro e he
        simp only [List.mem_singleton] at he
        subst he
        exact hc _ (List.mem_filter.mp hx').1) (by rw [hp']; simp) (by rw [hp']; simp) hxx (ha x hxp) (by rw [hnp']; simp) 1
    exact ⟨out, h1, h2, ⟨h3.label, h3.one, h3.firm⟩⟩
  obtain ⟨free, hfree⟩ : ∃ free, mapE (freeByproduct M d') ((production d').filter fun e => e.type != .referenceProduct) = .ok free := by
    refine mapE_ok_of_forall fun x' hx' => ?_
    obtain ⟨x, hx, h1, h2, h3⟩ := forall₂_mem_right hco hx'
    obtain ⟨out, h4, -⟩ := hone x x' h1 h2 h3
    exact ⟨out, h4⟩
  refine ⟨first :: free, ?_, ?_, ?_⟩
  · unfold wasteTreatmentAllocation
    rw [getSingle_ok.mpr hr', ebind_ok]
    have e1 : r'.cls = some .waste := by rw [hrk.cls]; exact hw
    have e2 : r'.amount < 0 := by rw [hrk.amount]; exact hneg
    simp only [e1, e2, ne_eq, not_true_eq_false, if_false, ebind_ok, epure, hf1, allocatableProduction_ok hc, hfree]
  · rw [hr]
    refine List.Forall₂.cons hf2 ?_
    show List.Forall₂ DsAlike ((coproducts d).map fun x => only { d with exchanges := [x] } x) free
    rw [List.forall₂_map_left_iff]
    refine forall₂_trans' hco (mapE_ok_iff.mp hfree) fun x x' o hx hxo => ?_
    obtain ⟨out, h2, h3, -⟩ := hone x x' hx.1 hx.2.1 hx.2.2
    rw [h2] at hxo
    cases hxo
    exact h3
  · intro o ho
    rcases List.mem_cons.mp ho with rfl | ho
    · exact hf3
    · obtain ⟨x', hx', hxo⟩ := mapE_mem hfree ho
      obtain ⟨x, hx, h1, h2, h3⟩ := forall₂_mem_right hco hx'
      obtain ⟨out, h4, -, h5⟩ := hone x x' h1 h2 h3
      rw [h4] at hxo
      cases hxo
      exact h5

theorem multiple_any {d : Dataset} (hc : Classified d) (h : multiple d = true) : anyAllocatableByproduct d.exchanges = .ok true := by
  obtain ⟨b, hb⟩ := anyAllocatableByproduct_ok hc
  rcases b with _ | _
  · obtain ⟨e, he, -⟩ := List.any_eq_true.mp h
    obtain ⟨h1, h2⟩ := List.mem_filter.mp he
    obtain ⟨h3, h4⟩ := List.mem_filter.mp h1
    have ht : e.type = .byproduct := by simpa using h2
    have := (anyAllocatableByproduct_false.mp hb e h3 ht).2
    exfalso
    apply this
    unfold isProduction at h4
    rw [ht] at h4
    simpa using h4
  · exact hb

theorem akin_multiple {d d' : Dataset} (h : DsAkin d d') : multiple d' = multiple d := by
  have h1 : List.Forall₂ Akin (coproducts d) (coproducts d') := forall₂_filter_rel (akin_production h) fun a b hab => by rw [hab.type]
  unfold multiple
  generalize coproducts d = l at h1 ⊢
  generalize coproducts d' = l' at h1 ⊢
  induction h1 with
  | nil => rfl
  | cons hab _ ih => rw [List.any_cons, List.any_cons, ih, hab.amount]

theorem recycling_production (d : Dataset) : production (recycling d) = coproducts d := by
  unfold production recycling coproducts production
  dsimp only
  generalize d.exchanges = l
  induction l with
  | nil => rfl
  | cons e l ih =>
    rw [List.map_cons, List.filter_cons, ih, List.filter_cons]
    by_cases hr : e.type = .referenceProduct
    · rw [if_pos hr, if_neg (by unfold isProduction; exact Bool.false_ne_true), if_pos (isProduction_ref hr), List.filter_cons, if_neg (by rw [hr]; decide)]
    · rw [if_neg hr]
      by_cases hp : isProduction e = true
      · rw [if_pos hp, if_pos hp, List.filter_cons, if_pos]
        unfold isProduction at hp
        rw [Bool.or_eq_true, Bool.and_eq_true] at hp
        rcases hp with hp | hp
        · exact absurd (by simpa using hp) hr
        · exact hp.1
      · rw [if_neg hp, if_neg hp]

theorem recycling_total (M : MathEnv) {d d' : Dataset} (h : DsAkin d d') (hc : Classified d') (hnames : ((production d).map (·.name)).Nodup)
    (ha : ∀ e ∈ production d, e.amount ≠ 0) (hn : ∀ e ∈ nonproduction d', Firm e) {r : Exchange} (hr : refs d = [r])
    (hneg : r.amount < 0) (hm : multiple d = true) (hs : ∀ e ∈ refs d', Steady e.toNumObj) (hv : Valued (production (recycling d))) :
    ∃ outs, recyclingAllocation M d' = .ok outs ∧
      List.Forall₂ DsAlike ((production (recycling d)).map (only (recycling d))) outs ∧ ∀ o ∈ outs, Result d' o := by
  obtain ⟨r', hr', hrk⟩ := akin_refs h hr
  have hone : ∀ e ∈ d'.exchanges, ∃ e', recyclingInput M e = .ok e' := by
    intro e he
    unfold recyclingInput
    split
    · next ht =>
      obtain ⟨o, ho, -⟩ := scale_steady M (hs e (List.mem_filter.mpr ⟨he, by simpa using ht⟩)) (-1)
      unfold scaleExchange
      dsimp only
      rw [ho]
      exact ⟨_, rfl⟩
    · exact ⟨e, rfl⟩
  obtain ⟨ex, hex⟩ := mapE_ok_of_forall hone
  have hk : DsAkin (recycling d) { d' with exchanges := ex } := by
    refine ⟨⟨h.1.name, h.1.type, h.1.location, h.1.id, h.1.parent, h.1.unit, h.1.startDate, h.1.endDate, h.1.suppliers, h.1.technologyLevel⟩, ?_⟩
    unfold recycling
    dsimp only
    rw [List.forall₂_map_left_iff]
    refine forall₂_trans' h.2 (mapE_ok_iff.mp hex) fun a b c hab hbc => ?_
    unfold recyclingInput at hbc
    by_cases ht : a.type = .referenceProduct
    · rw [if_pos ht]
      rw [if_pos (by rw [hab.type]; exact ht)] at hbc
      have hamt := (scaleExchange_scaled hbc).amount
      unfold scaleExchange at hbc
      obtain ⟨o, -, hbc⟩ := bind_eq_ok.mp hbc
      cases hbc
      refine ⟨rfl, hab.name, hab.cls, ?_, hab.link, hab.pv, hab.props, hab.conditional⟩
      rw [hamt]
      show b.amount * -1 = -a.amount
      rw [hab.amount]; ring
    · rw [if_neg ht]
      rw [if_neg (by rw [hab.type]; exact ht)] at hbc
      cases hbc
      exact hab
  have hty : ∀ e ∈ ex, ∃ b ∈ d'.exchanges, recyclingInput M b = .ok e := fun e he => mapE_mem hex he
  have hc' : Classified { d' with exchanges := ex } := by
    intro e he ht
    obtain ⟨b, hb, hbe⟩ := hty e he
    unfold recyclingInput at hbe
    split at hbe
    · rw [(scaleExchange_scaled hbe).type] at ht
      cases ht
    · cases hbe
      exact hc _ hb ht
  have hn' : ∀ e ∈ nonproduction { d' with exchanges := ex }, Firm e := by
    intro e he
    obtain ⟨he, hp⟩ := List.mem_filter.mp he
    obtain ⟨b, hb, hbe⟩ := hty e he
    unfold recyclingInput at hbe
    split at hbe
    · next ht =>
      have hst := hs b (List.mem_filter.mpr ⟨hb, by simpa using ht⟩)
      have : Firm { b with type := .fromTechnosphere } := ⟨hst, fun h => by cases h⟩
      obtain ⟨e2, g1, g2⟩ := firm_scale M this (-1)
      rw [g1] at hbe
      cases hbe
      exact g2
    · cases hbe
      exact hn _ (List.mem_filter.mpr ⟨hb, hp⟩)
  obtain ⟨outs, h1, h2, h3⟩ := economic_total M hk hc' (by
      rw [recycling_production]
      exact hnames.sublist (List.filter_sublist.map _)) (by
      rw [recycling_production]
      exact fun e he => ha e (List.mem_filter.mp he).1) hv hn'
  refine ⟨outs, ?_, h2, fun o ho => ⟨(h3 o ho).label, (h3 o ho).one, (h3 o ho).firm⟩⟩
  unfold recyclingAllocation
  have e2 : r'.amount < 0 := by rw [hrk.amount]; exact hneg
  have hm' : multiple d' = true := by rw [akin_multiple h]; exact hm
  simp only [getSingle_ok.mpr hr', ebind_ok, e2, not_true_eq_false, if_false, multiple_any hc hm', hex, h1]
  simp

/-! ## The labels -/

section
variable {M : MathEnv} {F : FormulaEnv} {ord : Dataset → Except Err (List String)}

theorem methods_join {ls : List String} {a b ra rb : List Item} (h1 : runMethods M F ord ls a = .ok ra) (h2 : runMethods M F ord ls b = .ok rb) :
    runMethods M F ord ls (a ++ b) = .ok (ra ++ rb) := by
  induction ls generalizing a b ra rb with
  | nil => cases h1; cases h2; rfl
  | cons l ls ih =>
    obtain ⟨ia, h3, h4⟩ := bind_eq_ok.mp h1
    obtain ⟨ib, h5, h6⟩ := bind_eq_ok.mp h2
    obtain ⟨ba, h7, rfl⟩ := flatMapE_ok_iff.mp h3
    obtain ⟨bb, h8, rfl⟩ := flatMapE_ok_iff.mp h5
    refine bind_eq_ok.mpr ⟨ba.flatten ++ bb.flatten, flatMapE_ok_iff.mpr ⟨ba ++ bb, mapE_append.mpr ⟨_, _, h7, h8, rfl⟩, by simp⟩, ih h4 h6⟩

theorem methods_one {ls pre post : List String} {m : String} (hs : ls = pre ++ m :: post) (hpre : m ∉ pre) (hpost : m ∉ post) {d : Dataset}
    (hl : d.allocationMethod = some m) {outs : List Dataset} (h : allocationMethod M F ord m d = .ok (outs.map .ds))
    (hlab : ∀ o ∈ outs, o.allocationMethod = some m) : runMethods M F ord ls [.ds d] = .ok (outs.map .ds) := by
  induction pre generalizing ls with
  | nil =>
    subst hs
    refine bind_eq_ok.mpr ⟨outs.map .ds, ?_, runMethods_skip hpost hlab⟩
    refine flatMapE_cons_ok.mpr ⟨outs.map .ds, [], ?_, rfl, by simp⟩
    simp only [methodStep]
    rw [hl]
    simp only [getKey_some, ebind_ok, if_pos]
    exact h
  | cons a pre ih =>
    subst hs
    refine bind_eq_ok.mpr ⟨[.ds d], ?_, ih rfl (by simp at hpre; exact hpre.2)⟩
    refine flatMapE_cons_ok.mpr ⟨[.ds d], [], ?_, rfl, by simp⟩
    simp only [methodStep]
    rw [hl]
    simp only [getKey_some, ebind_ok]
    rw [if_neg (by rintro rfl; simp at hpre)]
    rfl

theorem label_facts {d : Dataset} (hc : Classified d) {r : Exchange} (hr : refs d = [r]) (ha : r.amount ≠ 0) :
    chooseAllocationMethod d = .ok (if multiple d = false then "single product" else if d.type = .marketGroup then "market group"
      else if d.type = .market then (if d.exchanges.any (fun e => e.conditional == some true) then "constrained market" else "unconstrained market")
      else if r.amount < 0 then (if r.cls = some .waste then "waste treatment" else "recycling") else "economic") := by
  have hmem : r ∈ refs d := by rw [hr]; simp
  have hrt : r.type = .referenceProduct := by simpa using (List.mem_filter.mp hmem).2
  have h5 : (d.exchanges.filter fun e => e.type == .referenceProduct && e.amount != 0) = [r] := by
    have : (d.exchanges.filter fun e => e.type == .referenceProduct && e.amount != 0) = (refs d).filter fun e => e.amount != 0 := by
      simp only [refs, List.filter_filter, Bool.and_comm]
    rw [this, hr]
    simp [ha]
  have hneg : (d.exchanges.any fun e => e.type == .referenceProduct && decide (e.amount < 0)) = decide (r.amount < 0) := by
    have : (d.exchanges.any fun e => e.type == .referenceProduct && decide (e.amount < 0)) = (refs d).any fun e => decide (e.amount < 0) := by
      rw [refs, List.any_filter]
    rw [this, hr]
    simp
  have hmul : ((production d).any fun e => e.type == .byproduct && e.amount != 0) = multiple d := by
    rw [multiple, coproducts, List.any_filter]
  unfold chooseAllocationMethod
  rw [anyProduction_classified hc, anyProduction_classified hc, ebind_ok, ebind_ok, h5, hneg, hmul]
  dsimp only
  cases hm : multiple d
  · simp
  · simp only [List.map_cons, List.map_nil, Bool.true_eq_false, and_false, if_false, List.length_cons, List.length_nil, zero_add]
    split
    · rfl
    split
    · split <;> rfl
    rw [if_neg (by decide)]
    by_cases hlt : r.amount < 0
    · simp only [hlt, decide_true, if_true]
      simp only [List.dedup_cons_of_notMem (List.not_mem_nil), List.dedup_nil, List.length_singleton, ne_eq, not_true_eq_false, if_false]
      split <;> rfl
    · simp only [hlt, decide_false, if_false, Bool.false_eq_true]
      rfl

end

/-- Nothing to scale: the numbers of a dataset as they are read. -/
def Reliable (d : Dataset) : Prop :=
  ∀ e ∈ d.exchanges, Steady e.toNumObj ∧ (e.type = .byproduct → (e.cls = some .allocatable ∧ e.amount ≠ 0) ∨ ¬ IsUniform e.toNumObj)

theorem sound_firm {d : Dataset} (h : Reliable d) : ∀ e ∈ nonproduction d, Firm e := by
  intro e he
  obtain ⟨h1, h2⟩ := List.mem_filter.mp he
  refine ⟨(h e h1).1, fun ht => ?_⟩
  rcases (h e h1).2 ht with ⟨hc, -⟩ | hn
  · unfold isProduction at h2
    rw [ht, hc] at h2
    cases h2
  · exact hn

theorem split_total (P : PipelineEnv) {d d' : Dataset} (h : DsAkin d d') (ht : Tidy d') (hdiv : multiple d = true → Divisible d) (hs : Reliable d') :
    ∃ m outs, chooseAllocationMethod d' = .ok m ∧
      runMethods P.M P.F P.ord (allocationLabels.drop 1) [.ds { d' with allocationMethod := some m }] = .ok (outs.map .ds) ∧
      List.Forall₂ DsAlike (parts d) outs ∧ ∀ o ∈ outs, (refs o).length = 1 ∧ ∀ e ∈ o.exchanges, Firm e := by
  obtain ⟨r', hr', h1, h2⟩ := ht.ref
  obtain ⟨r, hr, hrk⟩ : ∃ r, refs d = [r] ∧ Akin r r' := by
    have hf : List.Forall₂ Akin (refs d) (refs d') := forall₂_filter_rel h.2 fun a b hab => by rw [hab.type]
    rw [hr'] at hf
    rcases hd : refs d with _ | ⟨r, t⟩ <;> rw [hd] at hf
    · cases hf
    obtain ⟨hk, htt⟩ := List.forall₂_cons.mp hf
    cases htt
    exact ⟨r, rfl, hk⟩
  have hc := ht.classified
  have hlabel := label_facts hc hr' h2
  have hra : refAmount d = r.amount := by unfold refAmount; rw [hr]; simp
  have hrc : refClass d = r.cls := by unfold refClass; rw [hr]; rfl
  set m := (if multiple d' = false then "single product" else if d'.type = .marketGroup then "market group"
      else if d'.type = .market then (if d'.exchanges.any (fun e => e.conditional == some true) then "constrained market" else "unconstrained market")
      else if r'.amount < 0 then (if r'.cls = some .waste then "waste treatment" else "recycling") else "economic") with hm
  refine ⟨m, ?_⟩
  set d'' := { d' with allocationMethod := some m } with hd''
  have hk : DsAkin d d'' := ⟨⟨h.1.name, h.1.type, h.1.location, h.1.id, h.1.parent, h.1.unit, h.1.startDate, h.1.endDate, h.1.suppliers, h.1.technologyLevel⟩, h.2⟩
  have hc'' : Classified d'' := hc
  have hf'' : ∀ e ∈ nonproduction d'', Firm e := sound_firm hs
  have hneg0 : r.amount ≠ 0 := by rw [← hrk.amount]; exact h2
  cases hmd : multiple d
  · have hlab : m = "single product" := by rw [hm, akin_multiple h, hmd, if_pos rfl]
    refine ⟨[d''], hlabel, ?_, ?_, ?_⟩
    · exact runMethods_skip (l := [d'']) (m := "single product") (by decide) (by simp [hd'', hlab])
    · unfold parts
      rw [hmd, if_neg (by decide)]
      exact .cons hk.alike .nil
    · intro o ho
      cases List.mem_singleton.mp ho
      refine ⟨by rw [show refs d'' = refs d' from rfl, hr']; rfl, fun e he => ⟨(hs e he).1, fun hte => ?_⟩⟩
      rcases (hs e he).2 hte with ⟨hca, hamt⟩ | hn
      · exfalso
        have : multiple d' = true := by
          refine List.any_eq_true.mpr ⟨e, List.mem_filter.mpr ⟨List.mem_filter.mpr ⟨he, ?_⟩, ?_⟩, ?_⟩
          · unfold isProduction; rw [hte, hca]; rfl
          · rw [hte]; rfl
          · simpa using hamt
        rw [akin_multiple h, hmd] at this
        cases this
      · exact hn
  · have hv := hdiv hmd
    have hty1 : d'.type ≠ .market := by rw [h.1.type]; exact hv.kind.1
    have hty2 : d'.type ≠ .marketGroup := by rw [h.1.type]; exact hv.kind.2
    have hvals := hv.values
    rw [hra] at hvals
    have hm2 : m = if r'.amount < 0 then (if r'.cls = some .waste then "waste treatment" else "recycling") else "economic" := by
      rw [hm, akin_multiple h, hmd, if_neg (by decide), if_neg hty2, if_neg hty1]
    by_cases h0 : 0 ≤ r.amount
    · rw [if_pos h0] at hvals
      have hlab : m = "economic" := by rw [hm2, if_neg (by rw [hrk.amount]; exact not_lt.mpr h0)]
      obtain ⟨outs, g1, g2, g3⟩ := economic_total P.M hk hc'' hv.names hv.amounts hvals hf''
      refine ⟨outs, hlabel, ?_, ?_, fun o ho => ⟨(g3 o ho).one, (g3 o ho).firm⟩⟩
      · refine methods_one (m := "economic") (pre := ["market group", "unconstrained market"])
          (post := ["constrained market", "recycling", "waste treatment", "combined production without products", "combined production", "combined production with byproducts"])
          (by decide) (by decide) (by decide) (by simp [hd'', hlab]) ?_ fun o ho => by rw [(g3 o ho).label, hd'', hlab]
        unfold allocationMethod datasetMethod
        simp [g1]
      · unfold parts
        rw [hmd, if_pos rfl, hra, if_pos h0]
        exact g2
    · rw [if_neg h0] at hvals
      have hlt : r.amount < 0 := not_le.mp h0
      by_cases hw : r.cls = some .waste
      · have hlab : m = "waste treatment" := by rw [hm2, if_pos (by rw [hrk.amount]; exact hlt), if_pos (by rw [hrk.cls]; exact hw)]
        obtain ⟨outs, g1, g2, g3⟩ := waste_treatment_total P.M hk hc'' hv.names hv.amounts hf'' hr hw hlt
        refine ⟨outs, hlabel, ?_, ?_, fun o ho => ⟨(g3 o ho).one, (g3 o ho).firm⟩⟩
        · refine methods_one (m := "waste treatment") (pre := ["market group", "unconstrained market", "economic", "constrained market", "recycling"])
            (post := ["combined production without products", "combined production", "combined production with byproducts"])
            (by decide) (by decide) (by decide) (by simp [hd'', hlab]) ?_ fun o ho => by rw [(g3 o ho).label, hd'', hlab]
          unfold allocationMethod datasetMethod
          simp [g1]
        · unfold parts
          rw [hmd, if_pos rfl, hra, if_neg h0, hrc, if_pos hw]
          exact g2
      · have hlab : m = "recycling" := by rw [hm2, if_pos (by rw [hrk.amount]; exact hlt), if_neg (by rw [hrk.cls]; exact hw)]
        rw [hrc] at hvals
        obtain ⟨outs, g1, g2, g3⟩ := recycling_total P.M hk hc'' hv.names hv.amounts hf'' hr hlt hmd
          (fun e he => (hs e (List.mem_filter.mp he).1).1) (hvals.resolve_left hw)
        refine ⟨outs, hlabel, ?_, ?_, fun o ho => ⟨(g3 o ho).one, (g3 o ho).firm⟩⟩
        · refine methods_one (m := "recycling") (pre := ["market group", "unconstrained market", "economic", "constrained market"])
            (post := ["waste treatment", "combined production without products", "combined production", "combined production with byproducts"])
            (by decide) (by decide) (by decide) (by simp [hd'', hlab]) ?_ fun o ho => by rw [(g3 o ho).label, hd'', hlab]
          unfold allocationMethod datasetMethod
          simp [g1]
        · unfold parts
          rw [hmd, if_pos rfl, hra, if_neg h0, hrc, if_neg hw]
          exact g2

/-- Allocation of the whole database. -/
theorem allocation_total (P : PipelineEnv) {l l' : List Dataset} (h : List.Forall₂ DsAkin l l') (ht : ∀ d ∈ l', Tidy d)
    (hdiv : ∀ d ∈ l, multiple d = true → Divisible d) (hs : ∀ d ∈ l', Reliable d) :
    ∃ labelled outs, labelAllocationMethod l' = .ok labelled ∧ runMethods P.M P.F P.ord (allocationLabels.drop 1) (labelled.map .ds) = .ok (outs.map .ds) ∧
      List.Forall₂ DsAlike (l.flatMap parts) outs ∧ ∀ o ∈ outs, (refs o).length = 1 ∧ ∀ e ∈ o.exchanges, Firm e := by
  induction h with
  | nil => exact ⟨[], [], rfl, runMethods_skip (l := []) (m := "") (by decide) (by simp), .nil, by simp⟩
  | @cons d d' l l' hd _ ih =>
    obtain ⟨lab, outs, g1, g2, g3, g4⟩ := ih (fun x hx => ht x (by simp [hx])) (fun x hx => hdiv x (by simp [hx])) fun x hx => hs x (by simp [hx])
    obtain ⟨m, o, f1, f2, f3, f4⟩ := split_total P hd (ht d' (by simp)) (hdiv d (by simp)) (hs d' (by simp))
    refine ⟨{ d' with allocationMethod := some m } :: lab, o ++ outs, ?_, ?_, ?_, ?_⟩
    · unfold labelAllocationMethod at g1 ⊢
      unfold mapE
      rw [f1, ebind_ok, g1]
      rfl
    · rw [List.map_append]
      exact methods_join (a := [.ds { d' with allocationMethod := some m }]) f2 g2
    · rw [List.flatMap_cons]
      exact List.rel_append f3 g3
    · intro x hx
      rcases List.mem_append.mp hx with hx | hx
      · exact f4 x hx
      · exact g4 x hx

/-! ## Recycled content -/

theorem recyclable_eq {d : Dataset} (hc : Classified d) {e : Exchange} (he : e ∈ d.exchanges) : isRecyclableByproduct e = .ok (recyclable e) := by
  unfold isRecyclableByproduct recyclable
  split
  · next ht =>
    obtain ⟨c, hcc⟩ := Option.ne_none_iff_exists'.mp (hc e he ht)
    rw [hcc, ht]
    simp
  · next ht => simp [ht]

theorem rename_total {l : List Dataset} (hc : ∀ d ∈ l, Classified d) : renameRecyclableContentExchanges l = .ok (l.map recNamed) := by
  unfold renameRecyclableContentExchanges
  rw [← mapE_pure]
  refine mapE_congr fun d hd => ?_
  have : mapE renameRecyclable d.exchanges = .ok (d.exchanges.map fun e => if recyclable e then { e with name := e.name ++ ", Recycled Content cut-off" } else e) := by
    rw [← mapE_pure]
    refine mapE_congr fun e he => ?_
    unfold renameRecyclable
    rw [recyclable_eq (hc d hd) he]
    rfl
  rw [this]
  rfl

theorem akin_recyclable {e e' : Exchange} (h : Akin e e') : recyclable e' = recyclable e := by
  unfold recyclable
  rw [h.type, h.cls]

theorem akin_recNamed {d d' : Dataset} (h : DsAkin d d') : DsAkin (recNamed d) (recNamed d') := by
  refine ⟨⟨h.1.name, h.1.type, h.1.location, h.1.id, h.1.parent, h.1.unit, h.1.startDate, h.1.endDate, h.1.suppliers, h.1.technologyLevel⟩, ?_⟩
  unfold recNamed
  dsimp only
  rw [List.forall₂_map_left_iff, List.forall₂_map_right_iff]
  refine h.2.imp fun a b hab => ?_
  rw [akin_recyclable hab]
  cases recyclable a
  · exact hab
  · refine ⟨hab.type, ?_, hab.cls, hab.amount, hab.link, hab.pv, hab.props, hab.conditional⟩
    show b.name ++ _ = a.name ++ _
    rw [hab.name]

/-- Exchanges of which only the name differs if they are recyclable. -/
theorem recNamed_filter {q : Exchange → Bool} (hq : ∀ e n, q { e with name := n } = q e) (hr : ∀ e, q e = true → recyclable e = false) (d : Dataset) :
    (recNamed d).exchanges.filter q = d.exchanges.filter q := by
  unfold recNamed
  dsimp only
  rw [List.filter_map]
  have : ∀ l : List Exchange, (l.filter (q ∘ fun e => if recyclable e then { e with name := e.name ++ ", Recycled Content cut-off" } else e)).map
      (fun e => if recyclable e then { e with name := e.name ++ ", Recycled Content cut-off" } else e) = l.filter q := by
    intro l
    induction l with
    | nil => rfl
    | cons e l ih =>
      rw [List.filter_cons, List.filter_cons]
      by_cases hqe : q e = true
      · have hre := hr e hqe
        rw [if_pos (by simp [hre, hqe]), if_pos hqe, List.map_cons, ih, hre]
        rfl
      · rw [if_neg hqe, if_neg, ih]
        simp only [Function.comp]
        split
        · rw [hq]; exact hqe
        · exact hqe
  exact this _

theorem recNamed_refs (d : Dataset) : refs (recNamed d) = refs d :=
  recNamed_filter (fun _ _ => rfl) (fun e he => by unfold recyclable; rw [show e.type = .referenceProduct by simpa using he]; rfl) d

theorem recNamed_production (d : Dataset) : production (recNamed d) = production d :=
  recNamed_filter (fun _ _ => rfl) (fun e he => by
    unfold isProduction at he
    unfold recyclable
    rcases hc : e.cls with _ | c
    · simp
    · rw [hc] at he
      rw [Bool.or_eq_true, Bool.and_eq_true] at he
      rcases he with he | ⟨-, he⟩
      · rw [show e.type = .referenceProduct by simpa using he]; rfl
      · have : c = .allocatable := by simpa using he
        rw [this]; simp) d

theorem recNamed_mem {d : Dataset} {e' : Exchange} (h : e' ∈ (recNamed d).exchanges) : ∃ e ∈ d.exchanges, ∃ n, e' = { e with name := n } := by
  obtain ⟨e, he, rfl⟩ := List.mem_map.mp h
  refine ⟨e, he, ?_⟩
  split
  · exact ⟨_, rfl⟩
  · exact ⟨e.name, rfl⟩

theorem recNamed_tidy {d : Dataset} (h : Tidy d) : Tidy (recNamed d) := by
  refine ⟨by rw [recNamed_refs]; exact h.ref, fun e' he' ht => ?_⟩
  obtain ⟨e, he, n, rfl⟩ := recNamed_mem he'
  exact h.byproducts e he ht

theorem recNamed_reliable {d : Dataset} (h : Reliable d) : Reliable (recNamed d) := by
  intro e' he'
  obtain ⟨e, he, n, rfl⟩ := recNamed_mem he'
  exact h e he

theorem recycling_recNamed (d : Dataset) : production (recycling (recNamed d)) = production (recycling d) := by
  rw [recycling_production, recycling_production, coproducts, coproducts, recNamed_production]

theorem recNamed_divisible {d : Dataset} (h : Divisible d) : Divisible (recNamed d) := by
  have h1 : refAmount (recNamed d) = refAmount d := by unfold refAmount; rw [recNamed_refs]
  have h2 : refClass (recNamed d) = refClass d := by unfold refClass; rw [recNamed_refs]
  refine ⟨h.kind, by rw [recNamed_production]; exact h.names, by rw [recNamed_production]; exact h.amounts, ?_⟩
  rw [h1, h2, recNamed_production, recycling_recNamed]
  exact h.values

theorem recNamed_multiple (d : Dataset) : multiple (recNamed d) = multiple d := by
  unfold multiple coproducts
  rw [recNamed_production]

theorem dictSet_rel {κ β γ : Type} [DecidableEq κ] {R : β → γ → Prop} {k : κ} {v : β} {w : γ} (hv : R v w) {l : List (κ × β)} {l' : List (κ × γ)}
    (h : List.Forall₂ (fun p q => p.1 = q.1 ∧ R p.2 q.2) l l') : List.Forall₂ (fun p q => p.1 = q.1 ∧ R p.2 q.2) (dictSet k v l) (dictSet k w l') := by
  induction h with
  | nil => exact .cons ⟨rfl, hv⟩ .nil
  | @cons p q l l' hpq hl ih =>
    unfold dictSet
    by_cases hk : p.1 = k
    · rw [if_pos hk, if_pos (by rw [← hpq.1]; exact hk)]
      exact .cons ⟨hpq.1, hv⟩ hl
    · rw [if_neg hk, if_neg (by rw [← hpq.1]; exact hk)]
      exact .cons hpq ih

theorem dictOf_rel {α κ : Type} [DecidableEq κ] {R : α → α → Prop} {key : α → κ} (hkey : ∀ a b, R a b → key a = key b) {l l' : List α}
    (h : List.Forall₂ R l l') : List.Forall₂ R ((dictOf key (fun d => d) l).map (·.2)) ((dictOf key (fun d => d) l').map (·.2)) := by
  have : ∀ (acc acc' : List (κ × α)), List.Forall₂ (fun p q => p.1 = q.1 ∧ R p.2 q.2) acc acc' →
      List.Forall₂ (fun p q => p.1 = q.1 ∧ R p.2 q.2) (l.foldl (fun acc a => dictSet (key a) a acc) acc) (l'.foldl (fun acc a => dictSet (key a) a acc) acc') := by
    induction h with
    | nil => exact fun _ _ h => h
    | @cons a b l l' hab _ ih =>
      intro acc acc' hacc
      rw [List.foldl_cons, List.foldl_cons, hkey a b hab]
      exact ih _ _ (dictSet_rel hab hacc)
  rw [List.forall₂_map_left_iff, List.forall₂_map_right_iff]
  exact (this [] [] .nil).imp fun _ _ h => h.2

theorem dictSet_val {κ β : Type} [DecidableEq κ] {k : κ} {v : β} {l : List (κ × β)} {x : β} (h : x ∈ (dictSet k v l).map (·.2)) : x = v ∨ x ∈ l.map (·.2) := by
  induction l with
  | nil => simpa [dictSet] using h
  | cons p l ih =>
    unfold dictSet at h
    split at h
    · rw [List.map_cons] at h
      rcases List.mem_cons.mp h with rfl | h
      · exact .inl rfl
      · exact .inr (by simp [show x ∈ l.map (·.2) from h])
    · rw [List.map_cons] at h
      rcases List.mem_cons.mp h with rfl | h
      · exact .inr (by simp)
      · rcases ih h with h | h
        · exact .inl h
        · exact .inr (by rw [List.map_cons]; exact List.mem_cons_of_mem _ h)

theorem dictOf_val {α κ : Type} [DecidableEq κ] {key : α → κ} {l : List α} {x : α} (h : x ∈ (dictOf key (fun d => d) l).map (·.2)) : x ∈ l := by
  have : ∀ (acc : List (κ × α)), x ∈ (l.foldl (fun acc a => dictSet (key a) a acc) acc).map (·.2) → x ∈ l ∨ x ∈ acc.map (·.2) := by
    clear h
    induction l with
    | nil => exact fun _ h => .inr h
    | cons a l ih =>
      intro acc hx
      rcases ih _ hx with h | h
      · exact .inl (by simp [h])
      · rcases dictSet_val h with h | h
        · exact .inl (by simp [h])
        · exact .inr h
  rcases this [] h with h | h
  · exact h
  · simp at h

theorem recycled_one {d d' : Dataset} (h : DsAkin d d') {e e' : Exchange} (he : Akin e e') (h1 : d'.startDate.isSome) (h2 : d'.endDate.isSome)
    (h3 : d'.technologyLevel.isSome) :
    ∃ n, newRecycledContentDataset d' e' = .ok n ∧ DsAkin (recycled d e) n ∧ Tidy n ∧ Reliable n := by
  obtain ⟨a, ha⟩ := Option.isSome_iff_exists.mp h1
  obtain ⟨b, hb⟩ := Option.isSome_iff_exists.mp h2
  obtain ⟨c, hc⟩ := Option.isSome_iff_exists.mp h3
  unfold newRecycledContentDataset
  rw [ha, hb, hc]
  simp only [getKey_some, ebind_ok]
  refine ⟨_, rfl, ⟨⟨he.name, rfl, rfl, h.1.id, rfl, rfl, ?_, ?_, rfl, ?_⟩, .cons ⟨rfl, he.name, rfl, rfl, rfl, fun _ => rfl, rfl, rfl⟩ .nil⟩,
    ⟨⟨_, rfl, rfl, one_ne_zero⟩, ?_⟩, ?_⟩
  · show some a = d.startDate
    rw [← h.1.startDate, ha]
  · show some b = d.endDate
    rw [← h.1.endDate, hb]
  · show some c = d.technologyLevel
    rw [← h.1.technologyLevel, hc]
  · intro x hx hxt
    cases List.mem_singleton.mp hx
    cases hxt
  · intro x hx
    cases List.mem_singleton.mp hx
    exact ⟨steady_certain rfl, fun hxt => by cases hxt⟩

theorem recycled_ds {d d' : Dataset} (h : DsAkin d d') (hc : Classified d')
    (hd : (∃ e ∈ d'.exchanges, recyclable e = true) → d'.startDate.isSome ∧ d'.endDate.isSome ∧ d'.technologyLevel.isSome) :
    ∃ ns, (filterE isRecyclableByproduct d'.exchanges >>= fun recs => mapE (newRecycledContentDataset d') recs) = .ok ns ∧
      List.Forall₂ DsAkin ((d.exchanges.filter recyclable).map (recycled d)) ns ∧ ∀ n ∈ ns, Tidy n ∧ Reliable n := by
  have h0 : filterE isRecyclableByproduct d'.exchanges = .ok (d'.exchanges.filter recyclable) :=
    filterE_eq_filter fun e he => recyclable_eq hc he
  rw [h0, ebind_ok]
  have hF : List.Forall₂ Akin (d.exchanges.filter recyclable) (d'.exchanges.filter recyclable) :=
    forall₂_filter_rel h.2 fun a b hab => (akin_recyclable hab).symm
  have hone : ∀ e e', e' ∈ d'.exchanges.filter recyclable → Akin e e' → ∃ n, newRecycledContentDataset d' e' = .ok n ∧ DsAkin (recycled d e) n ∧ Tidy n ∧ Reliable n := by
    intro e e' he' hk
    obtain ⟨g1, g2⟩ := List.mem_filter.mp he'
    obtain ⟨k1, k2, k3⟩ := hd ⟨e', g1, g2⟩
    exact recycled_one h hk k1 k2 k3
  obtain ⟨ns, hns⟩ := mapE_ok_of_forall (f := newRecycledContentDataset d') (l := d'.exchanges.filter recyclable) fun e' he' => by
    obtain ⟨e, -, hk⟩ := forall₂_mem_right hF he'
    obtain ⟨n, hn, -⟩ := hone e e' he' hk
    exact ⟨n, hn⟩
  refine ⟨ns, hns, ?_, ?_⟩
  · rw [List.forall₂_map_left_iff]
    have hF2 : List.Forall₂ (fun a b => b ∈ d'.exchanges.filter recyclable ∧ Akin a b) (d.exchanges.filter recyclable) (d'.exchanges.filter recyclable) :=
      (forall₂_with_mem hF.flip).flip
    refine forall₂_trans' hF2 (mapE_ok_iff.mp hns) fun a b c hab hbc => ?_
    obtain ⟨n, hn, hk, -⟩ := hone a b hab.1 hab.2
    rw [hn] at hbc
    cases hbc
    exact hk
  · intro n hn
    obtain ⟨e', he', hen⟩ := mapE_mem hns hn
    obtain ⟨e, -, hk⟩ := forall₂_mem_right hF he'
    obtain ⟨n', hn', -, hk'⟩ := hone e e' he' hk
    rw [hn'] at hen
    cases hen
    exact hk'

theorem candidates_total {l l' : List Dataset} (h : List.Forall₂ DsAkin l l') (hc : ∀ d ∈ l', Classified d)
    (hd : ∀ d ∈ l', (∃ e ∈ d.exchanges, recyclable e = true) → d.startDate.isSome ∧ d.endDate.isSome ∧ d.technologyLevel.isSome) :
    ∃ ns, recycledContentCandidates l' = .ok ns ∧
      List.Forall₂ DsAkin (l.flatMap fun d => (d.exchanges.filter recyclable).map (recycled d)) ns ∧ ∀ n ∈ ns, Tidy n ∧ Reliable n := by
  unfold recycledContentCandidates
  induction h with
  | nil => exact ⟨[], rfl, .nil, by simp⟩
  | @cons d d' l l' hk _ ih =>
    obtain ⟨ns, g1, g2, g3⟩ := ih (fun x hx => hc x (by simp [hx])) fun x hx => hd x (by simp [hx])
    obtain ⟨ms, f1, f2, f3⟩ := recycled_ds hk (hc d' (by simp)) (hd d' (by simp))
    refine ⟨ms ++ ns, flatMapE_cons_ok.mpr ⟨ms, ns, f1, g1, rfl⟩, ?_, ?_⟩
    · rw [List.flatMap_cons]
      exact List.rel_append f2 g2
    · intro n hn
      rcases List.mem_append.mp hn with hn | hn
      · exact f3 n hn
      · exact g3 n hn

theorem create_total {l l' : List Dataset} (h : List.Forall₂ DsAkin l l') (hc : ∀ d ∈ l', Classified d)
    (hd : ∀ d ∈ l', (∃ e ∈ d.exchanges, recyclable e = true) → d.startDate.isSome ∧ d.endDate.isSome ∧ d.technologyLevel.isSome) :
    ∃ ns, createRecycledContentDatasets l' = .ok (l' ++ ns) ∧ List.Forall₂ DsAkin (recycledAll l) ns ∧ ∀ n ∈ ns, Tidy n ∧ Reliable n := by
  obtain ⟨ns, h1, h2, h3⟩ := candidates_total h hc hd
  unfold createRecycledContentDatasets
  rw [h1]
  exact ⟨_, rfl, dictOf_rel (fun a b hab => hab.1.name.symm) h2, fun n hn => h3 n (dictOf_val hn)⟩

theorem recycledAll_single {l : List Dataset} {d : Dataset} (h : d ∈ recycledAll l) : multiple d = false := by
  have := dictOf_val h
  obtain ⟨x, -, hx⟩ := List.mem_flatMap.mp this
  obtain ⟨e, -, rfl⟩ := List.mem_map.mp hx
  rfl

/-! ## From the links to allocation -/

/-- The functions from the cleaned up links to allocation. -/
def middleSteps : List Step :=
  [.checkActivityLinkValidity, .addHardLinkedVolumes, .updateTransformingVolumes, .renameRecyclable, .createRecycledContentDatasets,
    .labelAllocationMethod, .allocate "market group", .allocate "unconstrained market", .allocate "economic",
    .allocate "constrained market", .allocate "recycling", .allocate "waste treatment", .allocate "combined production without products",
    .allocate "combined production", .allocate "combined production with byproducts", .deleteAllocationMethod]

theorem reliable_kin {d d' : Dataset} (h : Reliable d) (hk : DsKin d d') : Reliable d' := by
  intro e' he'
  obtain ⟨e, he, k⟩ := forall₂_mem_right hk.exchanges he'
  obtain ⟨h1, h2⟩ := h e he
  refine ⟨k.steady h1, fun ht => ?_⟩
  rw [k.type] at ht
  rcases h2 ht with h2 | h2
  · exact .inl (by rw [k.cls, k.amount]; exact h2)
  · exact .inr (k.bent h2)

theorem middle_total {P : PipelineEnv} {base l : List Dataset} (hb : List.Forall₂ DsAkin base l) (hp : ∀ d ∈ l, Tidy d) (hid : (l.map (·.id)).Nodup)
    (hs : ∀ d ∈ l, Reliable d) (hdiv : ∀ d ∈ base, multiple d = true → Divisible d)
    (hdates : ∀ d ∈ base, (∃ e ∈ d.exchanges, recyclable e = true) → d.startDate.isSome ∧ d.endDate.isSome ∧ d.technologyLevel.isSome)
    (hlink : ∀ d ∈ l, ∀ e ∈ d.exchanges, ∀ i, e.activityLink = some i → i ≠ "" →
      ∃ t ∈ l, t.id = i ∧ ((production t).filter fun x => x.name == e.name).length = 1) (ss : List Step) :
    ∃ l', runSteps P (middleSteps ++ ss) l = runSteps P ss l' ∧
      List.Forall₂ DsAlike ((base.map recNamed ++ recycledAll (base.map recNamed)).flatMap parts) l' ∧
      ∀ o ∈ l', (refs o).length = 1 ∧ ∀ e ∈ o.exchanges, Firm e := by
  have hc : ∀ d ∈ l, Classified d := fun d hd => (hp d hd).classified
  have hpv : ∀ d ∈ l, ∀ e ∈ d.exchanges, isProduction e = true → e.pv ≠ none := fun d hd e he h => Option.isSome_iff_ne_none.mp ((hp d hd).pv he h)
  have h1 : checkActivityLinkValidity l = .ok l := by
    refine (C28_unique_ids l hc hid).mpr fun d hd e he i hi h0 => ?_
    obtain ⟨t, ht, hti, hr⟩ := hlink d hd e he i hi h0
    exact ⟨t, ht, hti, List.length_eq_one_iff.mp hr⟩
  obtain ⟨l2, h2⟩ := C29_total l hid hc hpv h1 fun d hd => by
    obtain ⟨r, hr, -, ha⟩ := (hp d hd).ref
    exact ⟨r, by rw [hr]; simp, ha⟩
  have k2 : List.Forall₂ DsKin l l2 := by
    rw [(addHardLinked_inv hid h2).1, List.forall₂_map_right_iff]
    exact List.forall₂_same.mpr fun d _ => .applied _ d
  have hp2 : ∀ d ∈ l2, Tidy d := fun d hd => by
    obtain ⟨d0, hd0, hk⟩ := forall₂_mem_right k2 hd
    exact (hp d0 hd0).of_kin hk.exchanges
  obtain ⟨l3, h3⟩ := C30_total l2 fun d hd _ => ⟨(hp2 d hd).classified, fun e he h => Option.isSome_iff_ne_none.mp ((hp2 d hd).pv he h)⟩
  have k3 : List.Forall₂ DsKin l l3 := forall₂_trans' k2 (DsKin.transforming h3) fun _ _ _ => DsKin.trans
  have hp3 : ∀ d ∈ l3, Tidy d := fun d hd => by
    obtain ⟨d0, hd0, hk⟩ := forall₂_mem_right k3 hd
    exact (hp d0 hd0).of_kin hk.exchanges
  have hs3 : ∀ d ∈ l3, Reliable d := fun d hd => by
    obtain ⟨d0, hd0, hk⟩ := forall₂_mem_right k3 hd
    exact reliable_kin (hs d0 hd0) hk
  have hb3 : List.Forall₂ DsAkin base l3 := forall₂_trans' hb k3 fun _ _ _ => DsAkin.kin
  have h4 := rename_total fun d hd => (hp3 d hd).classified
  have hb4 : List.Forall₂ DsAkin (base.map recNamed) (l3.map recNamed) := by
    rw [List.forall₂_map_left_iff, List.forall₂_map_right_iff]
    exact hb3.imp fun _ _ => akin_recNamed
  have hp4 : ∀ d ∈ l3.map recNamed, Tidy d := fun d hd => by
    obtain ⟨d0, hd0, rfl⟩ := List.mem_map.mp hd
    exact recNamed_tidy (hp3 d0 hd0)
  have hs4 : ∀ d ∈ l3.map recNamed, Reliable d := fun d hd => by
    obtain ⟨d0, hd0, rfl⟩ := List.mem_map.mp hd
    exact recNamed_reliable (hs3 d0 hd0)
  obtain ⟨ns, h5, k5, g5⟩ := create_total hb4 (fun d hd => (hp4 d hd).classified) (by
    rintro d' hd' ⟨e', he', hre'⟩
    obtain ⟨d3, hd3, rfl⟩ := List.mem_map.mp hd'
    obtain ⟨d, hd, hk⟩ := forall₂_mem_right hb3 hd3
    obtain ⟨e3, he3, n, rfl⟩ := recNamed_mem he'
    obtain ⟨e, he, hke⟩ := forall₂_mem_right hk.2 he3
    obtain ⟨g1, g2, g3⟩ := hdates d hd ⟨e, he, by rw [← akin_recyclable hke]; exact hre'⟩
    rw [← hk.1.startDate] at g1
    rw [← hk.1.endDate] at g2
    rw [← hk.1.technologyLevel] at g3
    exact ⟨g1, g2, g3⟩)
  obtain ⟨lab, outs, h6, h7, h8, h9⟩ := allocation_total P (List.rel_append hb4 k5)
    (fun d hd => (List.mem_append.mp hd).elim (hp4 d) fun hd => (g5 d hd).1)
    (fun d hd hm => by
      rcases List.mem_append.mp hd with hd | hd
      · obtain ⟨d0, hd0, rfl⟩ := List.mem_map.mp hd
        rw [recNamed_multiple] at hm
        exact recNamed_divisible (hdiv d0 hd0 hm)
      · rw [recycledAll_single hd] at hm
        cases hm)
    (fun d hd => (List.mem_append.mp hd).elim (hs4 d) fun hd => (g5 d hd).2)
  refine ⟨outs.map fun d => { d with allocationMethod := none }, ?_, ?_, ?_⟩
  · have : middleSteps ++ ss = .checkActivityLinkValidity :: .addHardLinkedVolumes :: .updateTransformingVolumes :: .renameRecyclable ::
        .createRecycledContentDatasets :: .labelAllocationMethod :: ((allocationLabels.drop 1).map Step.allocate ++ (.deleteAllocationMethod :: ss)) := rfl
    rw [this, step_on (f := checkActivityLinkValidity) rfl h1, step_on (f := addHardLinkedProductionVolumes) rfl h2,
      step_on (f := updateTransformingVolumes) rfl h3, step_on (f := renameRecyclableContentExchanges) rfl h4,
      step_on (f := createRecycledContentDatasets) rfl h5, step_on (f := labelAllocationMethod) rfl h6]
    unfold runSteps
    rw [foldE_append_eq, foldE_allocate, h7]
    simp only [Except.bind, foldE]
    have : Step.run P .deleteAllocationMethod (outs.map .ds) = .ok ((outs.map fun d => { d with allocationMethod := none }).map .ds) := by
      show mapE deleteAllocationMethod _ = _
      rw [mapE_map, List.map_map, ← mapE_pure]
      rfl
    rw [this, ebind_ok]
  · rw [List.forall₂_map_right_iff]
    exact h8.imp fun a b hab => ⟨⟨hab.1.name, hab.1.type, hab.1.location, hab.1.id, hab.1.parent, hab.1.unit, hab.1.startDate, hab.1.endDate, hab.1.suppliers, hab.1.technologyLevel⟩, hab.2⟩
  · intro o ho
    obtain ⟨o', ho', rfl⟩ := List.mem_map.mp ho
    exact h9 o' ho'

/-- The whole configuration. -/
theorem input_total {P : PipelineEnv} (hT : WellFormed P.T) (hg : ∃ g, HasFaces P.T "GLO" g) (hσ : IterationOrder P.σ) {data : List Dataset}
    (hr : Readable P data) (ho : Orderly true P.T P.lower P.md5 (kept (allocated data))) :
    ∃ out : List Dataset, runConfig P cutoffConfig data = .ok (out.map .ds) := by
  have hsteps : unwrapAll cutoffConfig = firstSteps ++ ([.dropRpActivityLinks, .dropZeroAmountActivityLinks, .updateParentChild, .fix35ActivityLinks] ++
      (middleSteps ++ (openingSteps ++ (cutoffLinking ++ cutoffEnd)))) := by decide +kernel
  rw [runConfig_eq, hsteps]
  change ∃ out : List Dataset, runSteps P _ data = _
  obtain ⟨l, hl, hseen⟩ := first_total hr ([.dropRpActivityLinks, .dropZeroAmountActivityLinks, .updateParentChild, .fix35ActivityLinks] ++
      (middleSteps ++ (openingSteps ++ (cutoffLinking ++ cutoffEnd))))
  have hp : ∀ d ∈ l, Tidy d := fun d hd => by
    obtain ⟨d0, hd0, hs⟩ := forall₂_mem_right hseen hd
    exact seen_tidy (hr.tidy hd0) (hr.unmarked hd0) hs
  rw [hl, links_total hp]
  have hak : List.Forall₂ DsAkin (data.map prepared) (l.map relinkedDs) := by
    rw [List.forall₂_map_left_iff, List.forall₂_map_right_iff]
    exact hseen.imp fun d d' h => seen_akin h
  have hp3 : ∀ d ∈ l.map relinkedDs, Tidy d := fun d' hd' => by
    obtain ⟨d, hd, rfl⟩ := List.mem_map.mp hd'
    exact (hp d hd).ref_map (relinked_frame d)
  have hid : ((l.map relinkedDs).map (·.id)).Nodup := by
    have : (l.map relinkedDs).map (·.id) = data.map (·.id) := by
      rw [← forall₂_map_eq' hak fun a b hab => hab.1.id.symm, List.map_map]
      rfl
    rw [this]
    exact hr.ids
  have hrel : ∀ d ∈ l.map relinkedDs, Reliable d := by
    intro d3 hd3 e3 he3
    obtain ⟨d2, hd2, rfl⟩ := List.mem_map.mp hd3
    obtain ⟨e2, he2, rfl⟩ := List.mem_map.mp he3
    obtain ⟨d, hd, hs⟩ := forall₂_mem_right hseen hd2
    obtain ⟨e, he, hk, hst⟩ := forall₂_mem_right hs.2 he2
    obtain ⟨he, hv⟩ := List.mem_filter.mp he
    obtain ⟨h1, h2⟩ := hr.numbers d hd e he hv
    have hfr := relinked_frame d2 e2
    rw [hfr]
    refine ⟨hst h1, fun ht => ?_⟩
    rcases h2 (by rw [← hk.type]; exact ht) with h2 | h2
    · exact .inl ⟨hk.cls.trans h2.1, by show e2.amount ≠ 0; rw [hk.amount]; exact h2.2⟩
    · exact .inr (hk.bent h2)
  obtain ⟨l4, h4, hk4, hf4⟩ := middle_total (P := P) hak hp3 hid hrel (by
      intro d hd hm
      obtain ⟨d0, hd0, rfl⟩ := List.mem_map.mp hd
      exact hr.products d0 hd0 hm) (by
      rintro d hd ⟨e, he, hre⟩
      obtain ⟨d0, hd0, rfl⟩ := List.mem_map.mp hd
      obtain ⟨e0, he0, rfl⟩ := List.mem_map.mp he
      exact hr.dates d0 hd0 ⟨e0, (List.mem_filter.mp he0).1, hre⟩) (by
    intro d' hd' e' he' i hi h0
    obtain ⟨d, hd, h⟩ := forall₂_mem_right hak hd'
    obtain ⟨d0, hd0, rfl⟩ := List.mem_map.mp hd
    obtain ⟨e, he, hke⟩ := forall₂_mem_right h.2 he'
    obtain ⟨t, ht, hti, htp⟩ := hr.targets d0 hd0 e he i (alike_link hke.alike hi h0) h0
    obtain ⟨t', ht', htk⟩ := forall₂_mem_left hak (List.mem_map.mpr ⟨t, ht, rfl⟩)
    refine ⟨t', ht', by rw [htk.1.id]; exact hti, ?_⟩
    rw [← htp, hke.name]
    exact (forall₂_filter_rel (akin_production htk) fun a b hab => by rw [hab.name]).length_eq.symm) (openingSteps ++ (cutoffLinking ++ cutoffEnd))
  rw [h4]
  rw [List.map_map] at hk4
  refine linking_total hT hg hσ (fun d hd => (hf4 d hd).1) (ho.alike (alike_kept hk4) ?_)
  intro d hd e he
  obtain ⟨h1, h2⟩ := (hf4 d (List.mem_filter.mp hd).1).2 e he
  exact ⟨h1, fun ht _ => h2 ht⟩

end Progress
end Ocelot
