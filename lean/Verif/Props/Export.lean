import Verif.Proofs.PipelineExport
import Verif.Props.Brightway

/-! # C109: exporting the results of system models

Whether the result of a system model can be exported to Brightway2 (/repo/ocelot/io/brightway2.py), and that the exported database is a
square matrix. -/

namespace Ocelot

namespace Spec

/-- The given datasets have what every exported activity needs. -/
def Dated (data : List Dataset) : Prop := ∀ d ∈ data, d.startDate.isSome ∧ d.endDate.isSome ∧ d.technologyLevel.isSome

/-- The production exchanges of an exported activity. -/
def productions (a : BwActivity) : List BwExchange := a.exchanges.filter fun b => b.type = .production

end Spec

open Spec

theorem dated_result {data result : List Dataset} (hd : Dated data) (h : ∀ d' ∈ result, ∃ d ∈ data, d'.id = d.id ∧ sourceOf d' = sourceOf d) :
    ∀ d ∈ result, d.startDate.isSome ∧ d.endDate.isSome ∧ d.technologyLevel.isSome := by
  intro d' hd'
  obtain ⟨d, hdd, -, hs⟩ := h d' hd'
  simp only [sourceOf, Prod.mk.injEq] at hs
  obtain ⟨h1, h2, h3⟩ := hd d hdd
  rw [hs.2.1, hs.2.2.1, hs.2.2.2.1]
  exact ⟨h1, h2, h3⟩

theorem convert_ok_iff (db : String) (data : List Dataset) : (∃ as, convertToBrightway db data = .ok as) ↔ ∀ d ∈ data, ∃ a, translateActivity db d = .ok a := by
  constructor
  · rintro ⟨as, h⟩ d hd
    obtain ⟨a, -, ha⟩ := forall₂_mem_left ((C66_database db data as).mp h) hd
    exact ⟨a, ha⟩
  · exact mapE_ok_of_forall

theorem refs_eq (d : Dataset) : (d.exchanges.filter fun e => e.type = .referenceProduct) = refs d := by
  unfold refs
  apply List.filter_congr
  intro e _
  rw [Bool.eq_iff_iff]
  simp

theorem unit_ne_zero {d : Dataset} (h : UnitProduct d) {e : Exchange} (he : e ∈ d.exchanges) (ht : e.type = .referenceProduct) : e.amount ≠ 0 := by
  obtain ⟨rp, hr, hh⟩ := h
  have : e ∈ refs d := by rw [← refs_eq]; exact List.mem_filter.mpr ⟨he, by simpa using ht⟩
  rw [hr, List.mem_singleton] at this
  subst this
  intro h0
  rw [h0] at hh
  norm_num at hh

/-- C109: the result of the cut-off model can be exported exactly if all its inputs and byproducts with an amount are linked and all its
elementary exchanges with an amount have a compartment; unlinked inputs of refinery gas do not matter. The dates, technology levels,
codes and reference products are always as the export needs them. -/
theorem C109_cutoff_partial (P : PipelineEnv) (data : List Dataset) (out : List Item) (db : String) (hd : Dated data)
    (h : runConfig P cutoffConfig data = .ok out) :
    ∃ result : List Dataset, out = result.map .ds ∧
      ((∃ as, convertToBrightway db result = .ok as) ↔
        ∀ d ∈ result, ∀ e ∈ d.exchanges, e.amount ≠ 0 → ¬ UnlinkedRefineryGas e → e.type ≠ .referenceProduct → Exportable e) := by
  obtain ⟨result, hr, -, hall⟩ := C71_cutoff P data out h
  refine ⟨result, hr, ?_⟩
  obtain ⟨start, result', -, hr', -, -, hf, hsub, -⟩ := cutoff_codes h
  have : result = result' := List.map_injective_iff.mpr (fun x y hxy => by cases hxy; rfl) (hr.symm.trans hr')
  subst this
  have hdates := dated_result hd (result_from hf hsub)
  rw [convert_ok_iff]
  refine forall_congr' fun d => forall_congr' fun hdm => ?_
  rw [C66_succeeds_iff]
  obtain ⟨h1, h2, h3⟩ := hdates d hdm
  obtain ⟨hu, ⟨c, hc, hrc⟩, -, -⟩ := hall d hdm
  constructor
  · rintro ⟨-, -, -, -, -, hx⟩ e he h0 hg -
    exact hx e he h0 hg
  · intro hx
    refine ⟨by rw [hc]; rfl, h2, h1, h3, ?_, ?_⟩
    · obtain ⟨rp, hrp, -⟩ := hu
      rw [refs_eq, hrp]; rfl
    · intro e he h0 hg
      by_cases ht : e.type = .referenceProduct
      · refine Or.inl ⟨Or.inl ht, ?_⟩
        rw [hrc e (by rw [← refs_eq]; exact List.mem_filter.mpr ⟨he, by simpa using ht⟩)]
        rfl
      · exact hx e he h0 hg ht

theorem codes_from {hash : Dataset → String} {l out : List Dataset} {seen : List String} (h : addCodesFrom hash seen l = .ok out) : ∀ d ∈ out, ∃ x ∈ l, d.code = some (hash x) := by
  induction l generalizing seen out with
  | nil => cases h; simp
  | cons d l ih =>
    unfold addCodesFrom at h
    split at h
    · cases h
    · obtain ⟨r, hr, h⟩ := bind_eq_ok.mp h
      cases h
      intro d' hd'
      rcases List.mem_cons.mp hd' with rfl | hd'
      · exact ⟨d, by simp, rfl⟩
      · obtain ⟨x, hx, hxe⟩ := ih hr d' hd'
        exact ⟨x, by simp [hx], hxe⟩

theorem codes_nonempty {P : PipelineEnv} {data : List Item} {pre : List Step} {start : List Dataset} (hmd5 : ∀ s, P.md5 s ≠ "")
    (h : foldE (fun d (s : Step) => s.run P d) data (pre ++ [.addUniqueCodes]) = .ok (start.map .ds)) : ∀ d ∈ start, d.code ≠ some "" := by
  obtain ⟨mid, -, h⟩ := foldE_split.mp h
  simp only [foldE] at h
  obtain ⟨m, h1, h2⟩ := bind_eq_ok.mp h
  obtain ⟨l, o, rfl, ho, rfl⟩ := onDatasets_ok (f := addUniqueCodes P.lower P.md5) h1
  simp only [Except.ok.injEq] at h2
  have : o = start := List.map_injective_iff.mpr (fun x y hxy => by cases hxy; rfl) h2
  subst this
  intro d hd
  obtain ⟨x, -, hx⟩ := codes_from ho d hd
  rw [hx, ne_eq, Option.some.injEq]
  exact hmd5 _

theorem forall₂_filter_both {α β : Type} {R : α → β → Prop} {p : α → Bool} {q : β → Bool} (hpq : ∀ a b, R a b → p a = q b) {l : List α} {r : List β} (h : List.Forall₂ R l r) :
    List.Forall₂ R (l.filter p) (r.filter q) := by
  induction h with
  | nil => exact .nil
  | @cons a b l r hab _ ih =>
    rw [List.filter_cons, List.filter_cons, hpq a b hab]
    split
    · exact .cons hab ih
    · exact ih

/-- C109: the exported database is square. All activities have different codes; each has exactly one production exchange, of its own
code and of amount one or minus one (up to the tolerance); every other exchange with an activity refers to an exported activity,
or to a rest-of-world dataset that the model deleted (see C90). -/
theorem C109_square (P : PipelineEnv) (data : List Dataset) (result : List Dataset) (db : String) (as : List BwActivity) (hmd5 : ∀ s, P.md5 s ≠ "") (hu : Unlinked data)
    (h : runConfig P cutoffConfig data = .ok (result.map .ds)) (hx : convertToBrightway db result = .ok as) :
    as.length = result.length ∧ (as.map (·.code)).Nodup ∧
    (∀ a ∈ as, ∃ b, productions a = [b] ∧ b.input = some (db, a.code) ∧ b.amount = a.productionAmount ∧ (|b.amount| = 1 ∨ |1 / |b.amount| - 1| ≤ 1 / 10 ^ 14)) ∧
    ∃ coded : List Dataset, runSteps P (cutoffBefore ++ [.addUniqueCodes]) data = .ok (coded.map .ds) ∧
      ∀ a ∈ as, ∀ b ∈ a.exchanges, ∀ x c, b.input = some (x, c) → x = db ∧ ((∃ a' ∈ as, a'.code = c) ∨ ∃ t ∈ coded, t.code = some c ∧ t.location = "RoW") := by
  obtain ⟨result', hr, hnodup, hall⟩ := C71_cutoff P data _ h
  have : result = result' := List.map_injective_iff.mpr (fun x y hxy => by cases hxy; rfl) hr
  subst this
  clear hr
  obtain ⟨coded, result', hcoded, hr, hlinks⟩ := C90_links_partial P data _ hu h
  have : result = result' := List.map_injective_iff.mpr (fun x y hxy => by cases hxy; rfl) hr
  subst this
  clear hr
  obtain ⟨start, result', hstart, hr, -, -, -, hsub, -⟩ := cutoff_codes h
  have : result = result' := List.map_injective_iff.mpr (fun x y hxy => by cases hxy; rfl) hr
  subst this
  clear hr
  have hne : ∀ d ∈ result, d.code ≠ some "" := by
    intro d hd
    obtain ⟨x, hx, hxe⟩ := List.mem_map.mp (hsub.subset (List.mem_map.mpr ⟨d, hd, rfl⟩))
    have hxc : x.code = d.code := congrArg (fun k => k.1) hxe
    exact hxc ▸ codes_nonempty hmd5 hstart x hx
  have hT := (C66_database db result as).mp hx
  have hcodes : result.map (·.code) = as.map fun a => some a.code := by
    clear hlinks hne hall hnodup hsub h hx
    induction hT with
    | nil => rfl
    | cons ha _ ih => rw [List.map_cons, List.map_cons, ih, (C66_fields ha).1]
  refine ⟨hT.length_eq.symm, ?_, ?_, coded, hcoded, ?_⟩
  · rw [hcodes] at hnodup
    have : (as.map fun a => some a.code) = (as.map (·.code)).map some := by rw [List.map_map]; rfl
    rw [this] at hnodup
    exact List.Nodup.of_map _ hnodup
  · intro a ha
    obtain ⟨d, hd, hda⟩ := forall₂_mem_right hT ha
    obtain ⟨⟨rp, hrp, hone⟩, ⟨c, hc, hrc⟩, -, -⟩ := hall d hd
    obtain ⟨hac, -, -, -, -, -, -, -, -, rp', hrp', -, -, hamt⟩ := C66_fields hda
    rw [refs_eq, hrp] at hrp'
    cases hrp'
    have hca : c = a.code := by rw [hc] at hac; exact Option.some.inj hac
    have hrpm : rp ∈ refs d := by rw [hrp]; simp
    have hrpm' : rp ∈ d.exchanges ∧ rp.type = .referenceProduct := by
      rw [← refs_eq] at hrpm
      obtain ⟨h1, h2⟩ := List.mem_filter.mp hrpm
      exact ⟨h1, by simpa using h2⟩
    have hrpc := hrc rp hrpm
    have h0 : rp.amount ≠ 0 := unit_ne_zero ⟨rp, hrp, hone⟩ hrpm'.1 hrpm'.2
    have hg : ¬ UnlinkedRefineryGas rp := by
      rintro ⟨-, hn | hn⟩
      · rw [hrpc] at hn; cases hn
      · exact hne d hd (hc.trans (hrpc.symm.trans hn))
    have hF := forall₂_filter_both (p := fun e : Exchange => decide (e.type = .referenceProduct)) (q := fun b : BwExchange => decide (b.type = .production)) (by
      intro e b hb
      rcases hb with ⟨ht, c, -, rfl⟩ | ⟨ht, c, -, rfl⟩ | ⟨ht, c, -, rfl⟩ | ⟨ht | ht, c, s, -, rfl⟩ <;> rw [ht] <;> rfl) (C66_exchanges hda)
    rw [List.filter_filter] at hF
    have hl : (d.exchanges.filter fun e => decide (e.type = .referenceProduct) && decide (e.amount ≠ 0 ∧ ¬ UnlinkedRefineryGas e)) = [rp] := by
      have : (d.exchanges.filter fun e => decide (e.type = .referenceProduct) && decide (e.amount ≠ 0 ∧ ¬ UnlinkedRefineryGas e)) =
          (d.exchanges.filter fun e => decide (e.type = .referenceProduct)).filter fun e => decide (e.amount ≠ 0 ∧ ¬ UnlinkedRefineryGas e) := by
        rw [List.filter_filter]
        apply List.filter_congr
        intro e _
        rw [Bool.and_comm]
      rw [this, refs_eq, hrp]
      simp [h0, hg]
    rw [hl] at hF
    rw [List.forall₂_cons_left_iff] at hF
    obtain ⟨b, r, hb, hr, hbr⟩ := hF
    cases hr
    refine ⟨b, hbr, ?_⟩
    rcases hb with ⟨-, c', hc', rfl⟩ | ⟨ht, -⟩ | ⟨ht, -⟩ | ⟨ht | ht, -⟩
    · rw [hrpc] at hc'
      cases hc'
      exact ⟨by rw [hca], hamt.symm, hone⟩
    all_goals (rw [hrpm'.2] at ht; cases ht)
  · intro a ha b hb x c hbi
    obtain ⟨d, hd, hda⟩ := forall₂_mem_right hT ha
    obtain ⟨e, he, heb⟩ := forall₂_mem_right (C66_exchanges hda) hb
    have hem := (List.mem_filter.mp he).1
    have key : x = db ∧ e.code = some c := by
      rcases heb with ⟨ht, c', hc', rfl⟩ | ⟨ht, c', hc', rfl⟩ | ⟨ht, c', hc', rfl⟩ | ⟨ht, c', s, -, rfl⟩
      · cases hbi; exact ⟨rfl, hc'⟩
      · cases hbi; exact ⟨rfl, hc'⟩
      · cases hbi; exact ⟨rfl, hc'⟩
      · cases hbi
    refine ⟨key.1, ?_⟩
    obtain ⟨t, ht, htc, hrow⟩ := hlinks d hd e hem c key.2
    by_cases hl : t.location = "RoW"
    · exact Or.inr ⟨t, ht, htc, hl⟩
    · obtain ⟨t', ht', htc', -, -⟩ := hrow hl
      have : some c ∈ as.map fun a => some a.code := by
        rw [← hcodes]; exact List.mem_map.mpr ⟨t', ht', htc'⟩
      obtain ⟨a', ha', hac⟩ := List.mem_map.mp this
      exact Or.inl ⟨a', ha', Option.some.inj hac⟩

/-- C109: the consequential model never links reference products to their own datasets, so that no dataset of its result can be exported,
except when its product is constrained, or is refinery gas. -/
theorem C109_consequential (P : PipelineEnv) (data : List Dataset) (out : List Item) (db : String) (hu : Unlinked data) (h : runConfig P consequentialConfig data = .ok out) :
    ∃ result : List Dataset, out = result.map .ds ∧ ∀ d ∈ result, ∀ e ∈ refs d, e.conditional ≠ some true → e.name ≠ "refinery gas" →
      e.code = none ∧ (∀ a, translateActivity db d ≠ .ok a) ∧ ∀ as, convertToBrightway db result ≠ .ok as := by
  obtain ⟨result, hr, -, hall, -⟩ := C91_consequential P data out h
  refine ⟨result, hr, ?_⟩
  obtain ⟨start, result', hstart, hr', -, -, hf, -⟩ := consequential_codes h
  rw [runConfig_eq, consequential_unwrapped] at h
  have happ : consequentialBefore ++ .addUniqueCodes :: consequentialAfter = (consequentialBefore ++ [.addUniqueCodes]) ++ consequentialAfter := by simp
  rw [happ] at h
  obtain ⟨mid, h1, h2⟩ := foldE_split.mp h
  rw [hstart] at h1
  cases h1
  obtain ⟨r, hr2, hrp⟩ := foldE_rp P consequentialAfter (fun s hs => consequentialAfter_rp P hs) start out h2
  have : result = r := List.map_injective_iff.mpr (fun x y hxy => by cases hxy; rfl) (hr.symm.trans hr2)
  subst this
  have hfree := consequential_free P _ start hstart
  intro d hd e he hcond hname
  obtain ⟨hem, ht⟩ : e ∈ d.exchanges ∧ e.type = .referenceProduct := by
    rw [← refs_eq] at he
    obtain ⟨h1, h2⟩ := List.mem_filter.mp he
    exact ⟨h1, by simpa using h2⟩
  obtain ⟨d0, hd0, hfrom⟩ := hrp d hd
  obtain ⟨e0, he0, -, hc0, ha0, hcode⟩ := hfrom e hem ht
  have hfr := hfree d0 hd0 e0 he0
  have hno : e0.activityLink.getD "" = "" := by
    rcases hfr with hfr | hfr
    · exact absurd (hc0.trans hfr) hcond
    · exact hfr
  have hcode0 : e0.code = none := by
    obtain ⟨x, hx, hxd⟩ := hf d0 hd0
    rcases hxd.exchanges e0 he0 with hh | ⟨y, hy, hh⟩
    · exact congrArg Prod.fst hh
    · exact (congrArg Prod.fst hh).trans ((hu x hx).2 y hy)
  have hnone : e.code = none := by
    rcases hcode with hcode | hcode
    · exact hcode.trans hcode0
    · exact absurd hno hcode
  have hbad : ∀ a, translateActivity db d ≠ .ok a := by
    intro a ha
    obtain ⟨-, -, -, -, -, hx⟩ := (C66_succeeds_iff db d).mp ⟨a, ha⟩
    have := hx e hem (unit_ne_zero (hall d hd).1 hem ht) (fun hg => hname hg.1)
    rcases this with ⟨-, hs⟩ | ⟨hs | hs, -⟩
    · rw [hnone] at hs; cases hs
    · rw [ht] at hs; cases hs
    · rw [ht] at hs; cases hs
  refine ⟨hnone, hbad, ?_⟩
  intro as has
  obtain ⟨a, ha⟩ := (convert_ok_iff db result).mp ⟨as, has⟩ d hd
  exact hbad a ha

/-! ## Examples -/

/-- Steel, its market and a car factory that uses steel. -/
def exampleExports (marketLocation carLocation : String) : List Dataset :=
  [{ name := "steel production", location := "RER", id := "a", filepath := "a.spold", technologyLevel := some "current", startDate := some "2000", endDate := some "2010", exchanges := [{ name := "steel", id := "1", type := .referenceProduct, cls := some .allocatable, amount := 2, pv := some { amount := 100 } }, { name := "iron", id := "2", type := .fromEnvironment, compartment := some ("natural resource", "in ground"), amount := 6 }] },
   { name := "market for steel", location := marketLocation, type := .market, id := "b", filepath := "b.spold", technologyLevel := some "undefined", startDate := some "2000", endDate := some "2010", exchanges := [{ name := "steel", id := "3", type := .referenceProduct, cls := some .allocatable, amount := 1, pv := some { amount := 0 } }] },
   { name := "car production", location := carLocation, id := "c", filepath := "c.spold", technologyLevel := some "current", startDate := some "2000", endDate := some "2010", exchanges := [{ name := "car", id := "4", type := .referenceProduct, cls := some .allocatable, amount := 4, pv := some { amount := 10 } }, { name := "steel", id := "5", type := .fromTechnosphere, amount := 12 }] }]

def exampleExportP : PipelineEnv := { exampleP with T := { data := [("GLO", {1, 2, 3}), ("RER", {1, 2}), ("US", {3})] }, md5 := fun s => "code of " ++ s }

/-- What the examples show of an export. -/
def exportRows (P : PipelineEnv) (config : List (FnItem Step)) (data : List Dataset) : Option (List (String × List BwExchange)) :=
  ((runConfig P config data >>= fun l => asDatasets l >>= convertToBrightway "db").toOption).map fun l => l.map fun a => (a.code, a.exchanges)

example : exportRows exampleExportP cutoffConfig (exampleExports "GLO" "US") =
    some [("code of steel productionsteelRER20002010", [⟨.production, 1, some ("db", "code of steel productionsteelRER20002010"), none⟩, ⟨.biosphere, 3, none, some ("iron", "", "natural resource", "in ground")⟩]),
      ("code of market for steelsteelGLO20002010", [⟨.production, 1, some ("db", "code of market for steelsteelGLO20002010"), none⟩, ⟨.technosphere, 1, some ("db", "code of steel productionsteelRER20002010"), none⟩]),
      ("code of car productioncarUS20002010", [⟨.production, 1, some ("db", "code of car productioncarUS20002010"), none⟩, ⟨.technosphere, 3, some ("db", "code of market for steelsteelGLO20002010"), none⟩])] := by decide +kernel

example : Dated (exampleExports "GLO" "US") ∧ Unlinked (exampleExports "GLO" "US") := by unfold Dated Unlinked; decide +kernel

theorem exampleExportP_md5 : ∀ s, exampleExportP.md5 s ≠ "" := by
  intro s h
  have h : "code of " ++ s = "" := h
  have := congrArg String.length h
  rw [String.length_append] at this
  have h8 : ("code of " : String).length = 8 := by decide
  have h0 : ("" : String).length = 0 := by decide
  omega

/-- The consequential model runs to the end on the same datasets, and its result cannot be exported. -/
example : (runConfig exampleExportP consequentialConfig (exampleExports "GLO" "US")).toOption.isSome = true ∧ exportRows exampleExportP consequentialConfig (exampleExports "GLO" "US") = none := by
  refine ⟨?_, ?_⟩ <;> decide +kernel

/-- An input that keeps a result from being exported. -/
def blocks (e : Exchange) : Bool := e.type == .fromTechnosphere && e.amount != 0 && e.code.isNone && e.name != "refinery gas"

def Item.blocks : Item → Bool
  | .ds d => d.exchanges.any Ocelot.blocks
  | .str _ => false

theorem exampleUnlinked_run : ((runConfig exampleExportP cutoffConfig (exampleExports "RER" "US")).toOption.map fun l => l.any Item.blocks) = some true := by decide +kernel

/-- C109 fails for the cut-off model too: here a factory outside Europe needs a product with a European market only. The model runs to the
end, leaves the input unlinked (see C48), and the result cannot be exported. All elementary exchanges have compartments. -/
theorem C109_unlinked : ∃ (P : PipelineEnv) (data result : List Dataset), Unlinked data ∧ Dated data ∧
    (∀ d ∈ data, ∀ e ∈ d.exchanges, e.type = .fromEnvironment ∨ e.type = .toEnvironment → e.compartment.isSome) ∧
    runConfig P cutoffConfig data = .ok (result.map .ds) ∧ ∀ db as, convertToBrightway db result ≠ .ok as := by
  have hrun := exampleUnlinked_run
  rcases hr : runConfig exampleExportP cutoffConfig (exampleExports "RER" "US") with e | out
  · rw [hr] at hrun; cases hrun
  · rw [hr] at hrun
    simp only [Except.toOption, Option.map_some, Option.some.injEq] at hrun
    obtain ⟨start, result, -, rfl, -⟩ := cutoff_codes hr
    refine ⟨exampleExportP, exampleExports "RER" "US", result, by unfold Unlinked; decide +kernel, by unfold Dated; decide +kernel, by decide +kernel, hr, ?_⟩
    intro db as has
    obtain ⟨i, hi, hb⟩ := List.any_eq_true.mp hrun
    obtain ⟨d, hd, rfl⟩ := List.mem_map.mp hi
    obtain ⟨e, he, hbe⟩ := List.any_eq_true.mp hb
    simp only [blocks, Bool.and_eq_true, beq_iff_eq, bne_iff_ne, Option.isNone_iff_eq_none] at hbe
    obtain ⟨⟨⟨h1, h2⟩, h3⟩, h4⟩ := hbe
    obtain ⟨-, -, -, -, -, hx⟩ := (C66_succeeds_iff db d).mp ((convert_ok_iff db result).mp ⟨as, has⟩ d hd)
    rcases hx e he h2 (fun hg => h4 hg.1) with ⟨-, hs⟩ | ⟨hs | hs, -⟩
    · rw [h3] at hs; cases hs
    · rw [h1] at hs; cases hs
    · rw [h1] at hs; cases hs

end Ocelot
