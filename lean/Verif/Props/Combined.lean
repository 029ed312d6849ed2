import Verif.Proofs.Combined
import Verif.Props.Allocation

/-! # Properties C19, C20: combined production and merging -/

set_option linter.unusedSimpArgs false

namespace Ocelot
open Spec

/-! ## C19 -/

theorem recalculateO_inv {M : MathEnv} {F : FormulaEnv} {ord : Dataset → Except Err (List String)}
    {ds ds' : Dataset} (h : recalculateO M F ord ds = .ok ds') :
    ∃ o, ord ds = .ok o ∧ recalculate M F o ds = .ok ds' := bind_eq_ok.mp h

theorem sameExc_type {a b : Exchange} (h : SameExc a b) : b.type = a.type := by rw [h.1]

/-- Recalculation keeps all types, ids and metadata, without any hypothesis. -/
theorem recalculate_frame {M : MathEnv} {F : FormulaEnv} {o : List String} {ds ds' : Dataset}
    (h : recalculate M F o ds = .ok ds') :
    ds' = { ds with exchanges := ds'.exchanges, parameters := ds'.parameters } ∧
    List.Forall₂ SameExc ds.exchanges ds'.exchanges := by
  obtain ⟨σ, mid, -, hm, hr⟩ := recalc_inv h
  obtain ⟨-, a2, a3, -⟩ := Dataset.mapNumE_inv hm
  obtain ⟨-, b2, b3, -⟩ := Dataset.mapNumE_inv hr
  refine ⟨by rw [b2, a2], forall₂_trans' a3 b3 ?_⟩
  intro x y z hxy hyz
  exact (Exchange.mapNumE_frame hxy).1.trans (Exchange.mapNumE_frame hyz).1

theorem recalcObj_uncertainty {F : FormulaEnv} {σ : String → Option ℚ} {o o' : NumObj} (h : recalcObj F σ o = .ok o') : o'.uncertainty = o.uncertainty := by
  unfold recalcObj at h
  split at h
  · obtain ⟨v, -, h⟩ := bind_eq_ok.mp h
    cases h
    rfl
  · split at h
    · split at h
      · cases h; rfl
      · cases h
    · cases h; rfl

theorem repair_no_uncertainty {M : MathEnv} {o : NumObj} (h : o.uncertainty = none) : repair M o = .ok o := by
  unfold repair
  rw [h]

/-- C19: combined production returns one dataset per nonzero reference product, in order. Each consists of
that product (same amount, the only reference product, without formula and uncertainty), the other reference products turned into dropped
products of amount zero, and the remaining exchanges, recalculated: there are values `σ` of the names such
that every named object has its value and every formula is satisfied. -/
theorem C19_combined_production (M : MathEnv) (F : FormulaEnv) (hempty : F.parse "" = none)
    (ord : Dataset → Except Err (List String)) (hord : ∀ d o, ord d = .ok o → AdmissibleOrder F d o)
    (ds : Dataset) (hu : (ds.numObjs.filterMap (·.var)).Nodup) (outs : List Dataset)
    (h : combinedProduction M F ord ds = .ok outs) :
    List.Forall₂ (fun e out =>
      out = { ds with exchanges := out.exchanges, parameters := out.parameters } ∧
      ∃ rp dropped rest, out.exchanges = rp :: dropped ++ rest ∧ refs out = [rp] ∧
        SameExc e rp ∧ rp.amount = e.amount ∧ rp.formula = none ∧ rp.uncertainty = none ∧
        List.Forall₂ (fun o o' => o'.id = o.id ∧ o'.name = o.name ∧ o'.type = .droppedProduct ∧ o'.amount = 0 ∧
          o'.pv = none) ((refs ds).filter fun o => o != e) dropped ∧
        List.Forall₂ (fun o o' => SameExc o o' ∧ o'.formula = o.formula ∧ (o.formula = none → o'.amount = o.amount))
          (ds.exchanges.filter fun o => o.type != .referenceProduct) rest ∧
        ∃ σ, (∀ o ∈ out.numObjs, ∀ v, o.var = some v → σ v = some o.amount) ∧
          ∀ o ∈ out.numObjs, ∀ f, o.formula = some f → FormulaValue F σ f o.amount)
      ((refs ds).filter fun e => e.amount != 0) outs := by
  have hsrc : nonzeroReferenceProducts ds = (refs ds).filter fun e => e.amount != 0 := liveRefs_eq ds
  unfold combinedProduction at h
  rw [hsrc] at h
  refine (mapE_forall₂_mem h).imp ?_
  rintro e out ⟨he, hout⟩
  have her : e ∈ refs ds := (List.mem_filter.mp he).1
  obtain ⟨o, ho, hrec⟩ := recalculateO_inv hout
  obtain ⟨σ, mid, hσ, hmid, hrep, hF, hds, hex, -⟩ := recalc_values hempty (hord _ _ ho) (uniqueVars_subdivided her hu) hrec
  refine ⟨by rw [hds]; rfl, ?_⟩
  have hrefs : (ds.exchanges.filter fun o => o.type == .referenceProduct && o != e) = (refs ds).filter fun o => o != e := by
    unfold refs
    rw [List.filter_filter]
    congr 1; funext o; exact Bool.and_comm _ _
  have hsub : (subdivided ds e).exchanges = selectedProduct e :: (((refs ds).filter fun o => o != e).map nonreferenceProduct
      ++ ds.exchanges.filter fun o => o.type != .referenceProduct) := by
    unfold subdivided
    simp only [hrefs, List.cons_append, List.nil_append]
  rw [hsub] at hex
  rcases hoe : out.exchanges with _ | ⟨rp, tail⟩
  · rw [hoe] at hex; cases hex
  rw [hoe, List.forall₂_cons] at hex
  obtain ⟨⟨hs, hr⟩, htail⟩ := hex
  obtain ⟨dropped, rest, hd, hrest, rfl⟩ : ∃ dropped rest,
      List.Forall₂ (fun e e' => SameExc e e' ∧ Recalculated F σ e.toNumObj e'.toNumObj) (((refs ds).filter fun o => o != e).map nonreferenceProduct) dropped ∧
      List.Forall₂ (fun e e' => SameExc e e' ∧ Recalculated F σ e.toNumObj e'.toNumObj) (ds.exchanges.filter fun o => o.type != .referenceProduct) rest ∧
      tail = dropped ++ rest := by
    exact forall₂_append_inv htail
  have hunc : rp.uncertainty = none := by
    obtain ⟨-, -, hm, -⟩ := Dataset.mapNumE_inv hmid
    obtain ⟨-, -, hr', -⟩ := Dataset.mapNumE_inv hrep
    rw [hsub] at hm
    rcases hme : mid.exchanges with _ | ⟨mp, mt⟩
    · rw [hme] at hm; cases hm
    rw [hme, List.forall₂_cons] at hm
    rw [hme, hoe, List.forall₂_cons] at hr'
    have h1 := (Exchange.mapNumE_frame hm.1).2
    have h2 := (Exchange.mapNumE_frame hr'.1).2
    have h3 : mp.uncertainty = none := by
      rw [recalcObj_uncertainty h1]
      rfl
    rw [repair_no_uncertainty h3] at h2
    have h4 : mp.toNumObj = rp.toNumObj := by simpa using h2
    have h5 : rp.toNumObj.uncertainty = none := by rw [← h4]; exact h3
    exact h5
  refine ⟨rp, dropped, rest, rfl, ?_, ?_, hr.fixed rfl, hr.formula, hunc, ?_, ?_, σ, ?_, ?_⟩
  · have hrp : rp.type = .referenceProduct := by
      rw [sameExc_type hs]
      have := (List.mem_filter.mp her).2
      simpa [selectedProduct] using this
    have h1 : dropped.filter (fun e => e.type == .referenceProduct) = [] := by
      rw [List.filter_eq_nil_iff]
      intro x hx
      obtain ⟨y, hy, hxy⟩ := forall₂_mem_right hd hx
      obtain ⟨z, _, rfl⟩ := List.mem_map.mp hy
      rw [sameExc_type hxy.1]
      simp [nonreferenceProduct]
    have h2 : rest.filter (fun e => e.type == .referenceProduct) = [] := by
      rw [List.filter_eq_nil_iff]
      intro x hx
      obtain ⟨y, hy, hxy⟩ := forall₂_mem_right hrest hx
      rw [sameExc_type hxy.1]
      have := (List.mem_filter.mp hy).2
      simpa using this
    unfold refs
    rw [hoe, List.filter_cons_of_pos (by simp [hrp]), List.filter_append, h1, h2]
    rfl
  · obtain ⟨s1, s2, s3⟩ := hs
    exact ⟨by rw [s1]; rfl, s2, s3⟩
  · rw [List.forall₂_map_left_iff] at hd
    refine hd.imp ?_
    rintro a b ⟨hs, hr⟩
    refine ⟨by rw [hs.1]; rfl, by rw [hs.1]; rfl, by rw [hs.1]; rfl, hr.fixed rfl, ?_⟩
    have := hs.2.1
    simp only [nonreferenceProduct, Option.toList] at this
    rcases hb : b.pv with _ | p
    · rfl
    · rw [hb] at this; cases this
  · refine hrest.imp ?_
    rintro a b ⟨hs, hr⟩
    exact ⟨hs, hr.formula, hr.fixed⟩
  · intro o ho v hv
    obtain ⟨o₀, _, hr⟩ := forall₂_mem_right hF ho
    exact hr.named v (by rw [← hr.var, hv])
  · intro o ho f hf
    obtain ⟨o₀, _, hr⟩ := forall₂_mem_right hF ho
    exact hr.value f (by rw [← hr.formula, hf])

/-- C19, number of outputs and single reference products, without hypotheses on variables. -/
theorem C19_one_reference_product (M : MathEnv) (F : FormulaEnv) (ord : Dataset → Except Err (List String))
    (ds : Dataset) (outs : List Dataset) (h : combinedProduction M F ord ds = .ok outs) :
    List.Forall₂ (fun e out => ∃ rp, refs out = [rp] ∧ SameExc e rp)
      ((refs ds).filter fun e => e.amount != 0) outs := by
  have hsrc : nonzeroReferenceProducts ds = (refs ds).filter fun e => e.amount != 0 := liveRefs_eq ds
  unfold combinedProduction at h
  rw [hsrc] at h
  refine (mapE_forall₂_mem h).imp ?_
  rintro e out ⟨he, hout⟩
  have her : e ∈ refs ds := (List.mem_filter.mp he).1
  obtain ⟨o, ho, hrec⟩ := recalculateO_inv hout
  obtain ⟨hds, hex⟩ := recalculate_frame hrec
  have hfil : List.Forall₂ SameExc (refs (subdivided ds e)) (refs out) :=
    forall₂_filter_rel hex fun a b hab => by rw [sameExc_type hab]
  have hty : e.type = .referenceProduct := by
    have := (List.mem_filter.mp her).2
    simpa using this
  have hone : refs (subdivided ds e) = [selectedProduct e] := by
    unfold refs subdivided
    simp only [List.filter_append, List.cons_append, List.nil_append]
    rw [List.filter_cons_of_pos (by simp [selectedProduct, hty])]
    have h1 : (((ds.exchanges.filter fun o => o.type == .referenceProduct && o != e).map nonreferenceProduct).filter fun e => e.type == .referenceProduct) = [] := by
      rw [List.filter_eq_nil_iff]
      intro x hx
      obtain ⟨z, _, rfl⟩ := List.mem_map.mp hx
      simp [nonreferenceProduct]
    have h2 : ((ds.exchanges.filter fun o => o.type != .referenceProduct).filter fun e => e.type == .referenceProduct) = [] := by
      rw [List.filter_eq_nil_iff]
      intro x hx
      have := (List.mem_filter.mp hx).2
      simpa using this
    rw [List.filter_append, h1, h2]
    rfl
  rw [hone] at hfil
  generalize refs out = r at hfil
  cases hfil with
  | cons hab ht =>
    cases ht
    obtain ⟨s1, s2, s3⟩ := hab
    exact ⟨_, rfl, by rw [s1]; rfl, s2, s3⟩

/-- Two products; the input depends on both. -/
def exampleCombined : Dataset :=
  { name := "refinery", exchanges := [{ name := "petrol", id := "1", type := .referenceProduct, amount := 3, var := some "x" }, { name := "diesel", id := "2", type := .referenceProduct, amount := 5, var := some "y" }, { name := "crude", id := "3", type := .fromTechnosphere, amount := 6, formula := some "x * 2" }] }

example : combinedProduction sampleM exampleF (fun _ => .ok ["x", "y"]) exampleCombined = .ok [{ name := "refinery", exchanges := [{ name := "petrol", id := "1", type := .referenceProduct, amount := 3, var := some "x" }, { name := "diesel", id := "2", type := .droppedProduct, amount := 0, var := some "y" }, { name := "crude", id := "3", type := .fromTechnosphere, amount := 6, formula := some "x * 2" }] }, { name := "refinery", exchanges := [{ name := "diesel", id := "2", type := .referenceProduct, amount := 5, var := some "y" }, { name := "petrol", id := "1", type := .droppedProduct, amount := 0, var := some "x" }, { name := "crude", id := "3", type := .fromTechnosphere, amount := 0, formula := some "x * 2" }] }] := by
  decide +kernel
example : (exampleCombined.numObjs.filterMap (·.var)).Nodup := by decide +kernel

/-! ## C20 -/

namespace Spec

/-- The distinct elements in order of first appearance. -/
def firstOf {κ : Type} [DecidableEq κ] (l : List κ) : List κ :=
  l.foldl (fun acc k => if k ∈ acc then acc else acc ++ [k]) []

/-- Total amount of the exchanges with id `i`. -/
def amountOf (ds : Dataset) (i : String) : ℚ :=
  ((ds.exchanges.filter fun e => e.id == i).map (·.amount)).sum

/-- Activity name and sorted product names. -/
def activityKey (ds : Dataset) : String × List String :=
  (ds.name, ((production ds).map (·.name)).insertionSort (· ≤ ·))

/-- The exchange `e` of the first dataset of a group, after merging the group. -/
def mergedExchange (group : List Dataset) (e : Exchange) : Exchange :=
  { e with
    amount := (group.map fun d => amountOf d e.id).sum
    uncertainty := if e.type = .referenceProduct ∧ 1 < group.length then none else e.uncertainty }

end Spec

theorem groupBy_keys {α κ : Type} [DecidableEq κ] (key : α → κ) (l : List α) :
    (groupBy key l).map (·.1) = firstOf (l.map key) := by
  induction l using List.reverseRecOn with
  | nil => rfl
  | append_singleton l a ih =>
    rw [groupBy_append_one, List.map_append, List.map_singleton]
    unfold firstOf at *
    rw [List.foldl_append, ← ih]
    simp only [List.foldl_cons, List.foldl_nil]
    generalize groupBy key l = g
    induction g with
    | nil => simp [groupInsert]
    | cons p r ih2 =>
      obtain ⟨k', v'⟩ := p
      simp only [groupInsert]
      by_cases hk : k' = key a
      · simp [hk]
      · rw [if_neg hk]
        simp only [List.map_cons]
        rw [ih2]
        have hk' : key a ≠ k' := fun h => hk h.symm
        by_cases hm : key a ∈ r.map (·.1)
        · rw [if_pos hm, if_pos (by simp only [List.mem_cons]; exact Or.inr hm)]
        · rw [if_neg hm, if_neg (by simp only [List.mem_cons, not_or]; exact ⟨hk', hm⟩)]
          rfl

theorem idAmount_eq {ds : Dataset} (hid : (ds.exchanges.map (·.id)).Nodup) (i : String) :
    idAmount ds i = amountOf ds i := by
  unfold idAmount amountOf
  by_cases hex : ∃ e ∈ ds.exchanges, e.id = i
  · obtain ⟨e, he, hi⟩ := hex
    have hfil : (ds.exchanges.filter fun e => e.id == i) = [e] := by
      obtain ⟨l₁, l₂, hl⟩ := List.append_of_mem he
      rw [hl] at hid ⊢
      simp only [List.map_append, List.map_cons] at hid
      have h1 : ∀ x ∈ l₁, x.id ≠ i := by
        intro x hx hxi
        have := (List.nodup_append.mp hid).2.2 x.id (List.mem_map.mpr ⟨x, hx, rfl⟩) e.id (by simp)
        exact this (by rw [hxi, hi])
      have h2 : ∀ x ∈ l₂, x.id ≠ i := by
        intro x hx hxi
        have := (List.nodup_cons.mp (List.nodup_append.mp hid).2.1).1
        exact this (List.mem_map.mpr ⟨x, hx, by rw [hxi, hi]⟩)
      rw [List.filter_append, List.filter_cons_of_pos (by simp [hi])]
      rw [(List.filter_eq_nil_iff (l := l₁)).mpr (by simpa using h1), (List.filter_eq_nil_iff (l := l₂)).mpr (by simpa using h2)]
      rfl
    rw [hfil]
    have hmem : i ∈ (dictOf (fun e : Exchange => e.id) (fun e => e.amount) ds.exchanges).map (·.1) :=
      (dictOf_keys_mem _ _ _ _).mpr ⟨e, he, hi⟩
    obtain ⟨q, hq⟩ := (lookup_isSome_iff _ _).mp hmem
    rw [hq]
    obtain ⟨e', he', hi', hv⟩ := dictOf_mem_src (lookup_mem hq)
    have : e' ∈ ds.exchanges.filter fun e => e.id == i := List.mem_filter.mpr ⟨he', by simp [hi']⟩
    rw [hfil, List.mem_singleton] at this
    subst this
    simp [← hv]
  · have hnil : (ds.exchanges.filter fun e => e.id == i) = [] := by
      rw [List.filter_eq_nil_iff]
      intro e he hi
      exact hex ⟨e, he, by simpa using hi⟩
    rw [hnil]
    rcases hl : (dictOf (fun e : Exchange => e.id) (fun e => e.amount) ds.exchanges).lookup i with _ | q
    · rfl
    · obtain ⟨e', he', hi', -⟩ := dictOf_mem_src (lookup_mem hl)
      exact absurd ⟨e', he', hi'⟩ hex

/-- Folding `add_exchanges` over the rest of a group. -/
theorem foldl_addExchanges (rest : List Dataset) (p : Dataset) :
    rest.foldl addExchanges p = { p with exchanges := p.exchanges.map fun e => { e with
      amount := e.amount + (rest.map fun d => idAmount d e.id).sum
      uncertainty := if e.type = .referenceProduct ∧ 0 < rest.length then none else e.uncertainty } } := by
  induction rest generalizing p with
  | nil => simp
  | cons d rest ih =>
    rw [List.foldl_cons, ih]
    simp only [addExchanges, List.map_map, Dataset.mk.injEq, true_and, and_true]
    apply List.map_congr_left
    intro e _
    simp only [Function.comp, addTo]
    by_cases ht : e.type = .referenceProduct
    · simp [ht, add_assoc]
    · simp [ht, add_assoc]

theorem merge_group_eq {parent : Dataset} {rest : List Dataset} (hid : ∀ ds ∈ parent :: rest, (ds.exchanges.map (·.id)).Nodup) :
    mergeGroup (parent :: rest) = [{ parent with exchanges := parent.exchanges.map (mergedExchange (parent :: rest)) }] := by
  change [rest.foldl addExchanges parent] = _
  rw [foldl_addExchanges]
  congr 2
  apply List.map_congr_left
  intro e he
  unfold mergedExchange
  have h1 : (rest.map fun d => idAmount d e.id) = rest.map fun d => amountOf d e.id := by
    apply List.map_congr_left
    intro d hd
    exact idAmount_eq (hid d (by simp [hd])) _
  have h2 : e.amount = amountOf parent e.id := by
    have hid0 := hid parent (by simp)
    unfold amountOf
    obtain ⟨l₁, l₂, hl⟩ := List.append_of_mem he
    rw [hl] at hid0 ⊢
    simp only [List.map_append, List.map_cons] at hid0
    have h1 : ∀ x ∈ l₁, x.id ≠ e.id := by
      intro x hx hxi
      exact (List.nodup_append.mp hid0).2.2 x.id (List.mem_map.mpr ⟨x, hx, rfl⟩) e.id (by simp) hxi
    have h2 : ∀ x ∈ l₂, x.id ≠ e.id := by
      intro x hx hxi
      exact (List.nodup_cons.mp (List.nodup_append.mp hid0).2.1).1 (List.mem_map.mpr ⟨x, hx, hxi⟩)
    rw [List.filter_append, List.filter_cons_of_pos (by simp)]
    rw [(List.filter_eq_nil_iff (l := l₁)).mpr (by simpa using h1), (List.filter_eq_nil_iff (l := l₂)).mpr (by simpa using h2)]
    simp
  rw [h1]
  simp only [List.map_cons, List.sum_cons, List.length_cons, ← h2]
  have h3 : (1 < rest.length + 1) ↔ (0 < rest.length) := by omega
  simp only [h3]

theorem activityGrouper_ok {ds : Dataset} {k : String × List String} (h : activityGrouper ds = .ok k) :
    k = activityKey ds := by
  unfold activityGrouper extractProductsAsTuple at h
  obtain ⟨l, hl, h⟩ := bind_eq_ok.mp h
  obtain ⟨p, hp, hl⟩ := bind_eq_ok.mp hl
  cases h; cases hl
  rw [(allocatableProduction_inv hp).2]
  rfl

theorem mapE_withKey {data : List Dataset} {keyed : List ((String × List String) × Dataset)}
    (h : mapE (withKey activityGrouper) data = .ok keyed) : keyed = data.map fun d => (activityKey d, d) := by
  have hF := mapE_ok_iff.mp h
  clear h
  induction hF with
  | nil => rfl
  | cons hab _ ih =>
    obtain ⟨k, hk, hb⟩ := bind_eq_ok.mp hab
    cases hb
    rw [List.map_cons, ih, activityGrouper_ok hk]

/-- C20: merging returns one dataset per activity (name and products), in order of first appearance; it is
the first dataset of the group with, for every exchange, the amounts of the group's exchanges with that id
added up. -/
theorem C20_merge (data outs : List Dataset) (hid : ∀ ds ∈ data, (ds.exchanges.map (·.id)).Nodup)
    (h : mergeByproducts data = .ok outs) :
    List.Forall₂ (fun k out => ∃ parent rest, (data.filter fun d => activityKey d = k) = parent :: rest ∧
        out = { parent with exchanges := parent.exchanges.map (mergedExchange (parent :: rest)) })
      (firstOf (data.map activityKey)) outs ∧
    outs.map activityKey = firstOf (data.map activityKey) := by
  unfold mergeByproducts at h
  obtain ⟨-, -, h⟩ := bind_eq_ok.mp h
  obtain ⟨keyed, hk, h⟩ := bind_eq_ok.mp h
  simp only [epure, Except.ok.injEq] at h
  have hkeyed : keyed = data.map fun d => (activityKey d, d) := by
    exact mapE_withKey hk
  have hgroups : ∀ k g, (k, g) ∈ groupBy (fun p : (String × List String) × Dataset => p.1) keyed →
      g.map (·.2) = data.filter (fun d => activityKey d = k) ∧ g ≠ [] := by
    intro k g hg
    refine ⟨?_, groupBy_ne_nil hg⟩
    rw [groupBy_mem hg, hkeyed, List.filter_map, List.map_map]
    have hf : ((fun a : (String × List String) × Dataset => decide (a.1 = k)) ∘ fun d => (activityKey d, d)) = fun d => decide (activityKey d = k) := rfl
    rw [hf]
    have hc : (((fun x : (String × List String) × Dataset => x.2) ∘ fun d => (activityKey d, d))) = id := rfl
    rw [hc, List.map_id]
  have hkeys : (groupBy (fun p : (String × List String) × Dataset => p.1) keyed).map (·.1) = firstOf (data.map activityKey) := by
    rw [groupBy_keys, hkeyed, List.map_map]
    rfl
  have main : List.Forall₂ (fun k out => ∃ parent rest, (data.filter fun d => activityKey d = k) = parent :: rest ∧
        out = { parent with exchanges := parent.exchanges.map (mergedExchange (parent :: rest)) })
      (firstOf (data.map activityKey)) outs := by
    rw [← hkeys, ← h]
    clear h hkeys
    generalize groupBy (fun p : (String × List String) × Dataset => p.1) keyed = gs at hgroups
    induction gs with
    | nil => exact .nil
    | cons p gs ih =>
      obtain ⟨k, g⟩ := p
      obtain ⟨h1, h2⟩ := hgroups k g (by simp)
      rcases hg : data.filter (fun d => activityKey d = k) with _ | ⟨parent, rest⟩
      · rw [hg] at h1; simp at h1; exact absurd h1 h2
      · have hid' : ∀ ds ∈ parent :: rest, (ds.exchanges.map (·.id)).Nodup := by
          intro ds hds
          rw [← hg] at hds
          exact hid ds (List.mem_filter.mp hds).1
        simp only [List.map_cons, List.flatMap_cons, h1, hg]
        rw [merge_group_eq hid']
        exact .cons ⟨parent, rest, hg, rfl⟩ (ih fun k g hkg => hgroups k g (by simp [hkg]))
  refine ⟨main, ?_⟩
  have : List.Forall₂ (fun k out => k = activityKey out) (firstOf (data.map activityKey)) outs := by
    refine main.imp ?_
    rintro k out ⟨parent, rest, hg, rfl⟩
    have hp : activityKey parent = k := by
      have : parent ∈ data.filter (fun d => activityKey d = k) := by rw [hg]; simp
      simpa using (List.mem_filter.mp this).2
    rw [← hp]
    unfold activityKey
    simp only [Prod.mk.injEq, true_and]
    congr 1
    unfold production
    rw [List.filter_map, List.map_map]
    rfl
  have := forall₂_map_eq' this (p := fun k => k) (q := activityKey) (fun a b h => h)
  rw [← this, List.map_id']

theorem sum_flatMap_map {α β : Type} (l : List α) (g : α → List β) (f : β → ℚ) :
    ((l.flatMap g).map f).sum = (l.map fun a => ((g a).map f).sum).sum := by
  induction l with
  | nil => simp
  | cons a l ih => simp [List.flatMap_cons, ih]

theorem firstOf_sum {κ : Type} [DecidableEq κ] (key : Dataset → κ) (data : List Dataset) (f : Dataset → ℚ) :
    ((firstOf (data.map key)).map fun k => ((data.filter fun d => key d = k).map f).sum).sum = (data.map f).sum := by
  have h1 := (groupBy_perm key data).map f
  have h2 := h1.sum_eq
  rw [← h2, sum_flatMap_map, ← groupBy_keys, List.map_map]
  congr 1
  apply List.map_congr_left
  rintro ⟨k, g⟩ hg
  simp only [Function.comp]
  rw [groupBy_mem hg]

theorem amountOf_merged {parent : Dataset} {rest : List Dataset} (hid : (parent.exchanges.map (·.id)).Nodup) {i : String}
    (hsame : ∀ d ∈ rest, (∃ e ∈ d.exchanges, e.id = i) → ∃ e ∈ parent.exchanges, e.id = i) :
    amountOf { parent with exchanges := parent.exchanges.map (mergedExchange (parent :: rest)) } i =
      ((parent :: rest).map fun d => amountOf d i).sum := by
  by_cases hex : ∃ e ∈ parent.exchanges, e.id = i
  · obtain ⟨e, he, hi⟩ := hex
    obtain ⟨l₁, l₂, hl⟩ := List.append_of_mem he
    have hid0 := hid
    rw [hl] at hid0
    simp only [List.map_append, List.map_cons] at hid0
    have h1 : ∀ x ∈ l₁, x.id ≠ i := by
      intro x hx hxi
      exact (List.nodup_append.mp hid0).2.2 x.id (List.mem_map.mpr ⟨x, hx, rfl⟩) e.id (by simp) (by rw [hxi, hi])
    have h2 : ∀ x ∈ l₂, x.id ≠ i := by
      intro x hx hxi
      exact (List.nodup_cons.mp (List.nodup_append.mp hid0).2.1).1 (List.mem_map.mpr ⟨x, hx, by rw [hxi, hi]⟩)
    have hfil : (parent.exchanges.filter fun e => e.id == i) = [e] := by
      rw [hl, List.filter_append, List.filter_cons_of_pos (by simp [hi])]
      rw [(List.filter_eq_nil_iff (l := l₁)).mpr (by simpa using h1), (List.filter_eq_nil_iff (l := l₂)).mpr (by simpa using h2)]
      rfl
    have hm : ((parent.exchanges.map (mergedExchange (parent :: rest))).filter fun e => e.id == i) = [mergedExchange (parent :: rest) e] := by
      rw [List.filter_map]
      have : ((fun e : Exchange => e.id == i) ∘ mergedExchange (parent :: rest)) = fun e => e.id == i := rfl
      rw [this, hfil]
      rfl
    conv_lhs => unfold amountOf
    rw [hm]
    simp only [List.map_cons, List.map_nil, List.sum_cons, List.sum_nil, add_zero]
    simp only [mergedExchange, hi, List.map_cons, List.sum_cons]
  · have hz : ∀ d ∈ parent :: rest, amountOf d i = 0 := by
      intro d hd
      have : ¬ ∃ e ∈ d.exchanges, e.id = i := by
        rcases List.mem_cons.mp hd with rfl | hd
        · exact hex
        · exact fun h => hex (hsame d hd h)
      unfold amountOf
      rw [(List.filter_eq_nil_iff (l := d.exchanges)).mpr]
      · rfl
      · intro e he hi
        exact this ⟨e, he, by simpa using hi⟩
    have hz2 : ((parent :: rest).map fun d => amountOf d i).sum = 0 := by
      apply List.sum_eq_zero
      intro x hx
      obtain ⟨d, hd, rfl⟩ := List.mem_map.mp hx
      exact hz d hd
    rw [hz2]
    unfold amountOf
    rw [(List.filter_eq_nil_iff (l := parent.exchanges.map _)).mpr]
    · rfl
    · intro e he hi
      obtain ⟨e', he', rfl⟩ := List.mem_map.mp he
      exact hex ⟨e', he', by simpa [mergedExchange] using hi⟩

/-- C20: when datasets of the same activity have the same exchange ids, the total amount of every exchange
id is conserved. -/
theorem C20_merge_conserves (data outs : List Dataset) (hid : ∀ ds ∈ data, (ds.exchanges.map (·.id)).Nodup)
    (hsame : ∀ d ∈ data, ∀ d' ∈ data, activityKey d = activityKey d' → ∀ e ∈ d.exchanges,
      ∃ e' ∈ d'.exchanges, e'.id = e.id)
    (h : mergeByproducts data = .ok outs) (i : String) :
    (outs.map fun d => amountOf d i).sum = (data.map fun d => amountOf d i).sum := by
  obtain ⟨hF, -⟩ := C20_merge data outs hid h
  rw [← firstOf_sum activityKey data]
  have : List.Forall₂ (fun k out => ((data.filter fun d => activityKey d = k).map fun d => amountOf d i).sum = amountOf out i)
      (firstOf (data.map activityKey)) outs := by
    refine hF.imp ?_
    rintro k out ⟨parent, rest, hg, rfl⟩
    have hmem : ∀ d ∈ parent :: rest, d ∈ data ∧ activityKey d = k := by
      intro d hd
      rw [← hg] at hd
      have := List.mem_filter.mp hd
      exact ⟨this.1, by simpa using this.2⟩
    rw [hg, amountOf_merged (hid _ (hmem parent (by simp)).1)]
    rintro d hd ⟨e, he, rfl⟩
    have h1 := hmem d (by simp [hd])
    have h2 := hmem parent (by simp)
    exact hsame d h1.1 parent h2.1 (by rw [h1.2, h2.2]) e he
  rw [forall₂_map_eq' this (p := fun k => ((data.filter fun d => activityKey d = k).map fun d => amountOf d i).sum) (q := fun out => amountOf out i) fun a b h => h]

/-- C20: a remaining allocatable byproduct makes merging fail, otherwise it succeeds. -/
theorem C20_merge_outcome (data : List Dataset) (hc : ∀ ds ∈ data, Classified ds) :
    ((∃ ds ∈ data, ∃ e ∈ ds.exchanges, e.type = .byproduct ∧ e.cls = some .allocatable) →
      mergeByproducts data = .error .invalidExchange) ∧
    ((∀ ds ∈ data, ∀ e ∈ ds.exchanges, ¬ (e.type = .byproduct ∧ e.cls = some .allocatable)) →
      ∃ outs, mergeByproducts data = .ok outs) := by
  constructor
  · rintro ⟨ds, hds, e, he, ht, hcl⟩
    unfold mergeByproducts
    rcases hf : forE checkMergeable data with err | u
    · obtain ⟨d, hd, herr⟩ := forE_error hf
      unfold checkMergeable at herr
      obtain ⟨b, hb⟩ := anyAllocatableByproduct_ok (hc d hd)
      rw [hb] at herr
      cases b <;> simp at herr
      subst herr
      rfl
    · have := (forE_ok_iff.mp hf) ds hds
      unfold checkMergeable at this
      obtain ⟨b, hb, h⟩ := bind_eq_ok.mp this
      cases b
      · exact absurd hcl ((anyAllocatableByproduct_false.mp hb) e he ht).2
      · simp at h
  · intro hno
    unfold mergeByproducts
    have h1 : forE checkMergeable data = .ok () := by
      rw [forE_ok_iff]
      intro d hd
      unfold checkMergeable
      rw [anyAllocatableByproduct_false.mpr fun e he ht => ⟨hc d hd e he ht, fun h => hno d hd e he ⟨ht, h⟩⟩]
      rfl
    obtain ⟨r, hr⟩ : ∃ r, mapE (withKey activityGrouper) data = .ok r := by
      apply mapE_ok_of_forall
      intro d hd
      unfold withKey activityGrouper extractProductsAsTuple
      rw [allocatableProduction_ok (hc d hd)]
      exact ⟨_, rfl⟩
    rw [h1, hr]
    exact ⟨_, rfl⟩

example : mergeByproducts [{ name := "a", exchanges := [{ name := "p", id := "1", type := .referenceProduct, amount := 1 }, { name := "i", id := "2", type := .fromTechnosphere, amount := 3 }] }, { name := "b", exchanges := [{ name := "q", id := "1", type := .referenceProduct, amount := 1 }] }, { name := "a", exchanges := [{ name := "p", id := "1", type := .referenceProduct, amount := 1 }, { name := "i", id := "2", type := .fromTechnosphere, amount := 5 }] }] = .ok [{ name := "a", exchanges := [{ name := "p", id := "1", type := .referenceProduct, amount := 2 }, { name := "i", id := "2", type := .fromTechnosphere, amount := 8 }] }, { name := "b", exchanges := [{ name := "q", id := "1", type := .referenceProduct, amount := 1 }] }] := by
  decide +kernel

end Ocelot
