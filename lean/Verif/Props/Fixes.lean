import Verif.Props.FixParameters
import Verif.Proofs.TextLemmas
import Verif.Model.ActivityLinks
import Verif.Model.Markets

/-! # Property C105: the repairs of known errors in the ecoinvent data -/

namespace Ocelot
open Spec

/-- C105: an exchange is dropped exactly if it is an empty exchange of refinery gas in a petroleum refinery, and nothing else changes. -/
theorem C105_refinery (ds : Dataset) :
    fixSpecificIssues ds = { ds with exchanges := (fixSpecificIssues ds).exchanges } ∧ (fixSpecificIssues ds).exchanges.Sublist ds.exchanges ∧
    ∀ e ∈ ds.exchanges, (e ∈ (fixSpecificIssues ds).exchanges ↔ ¬ (ds.name = "petroleum refinery operation" ∧ e.name = "refinery gas" ∧ e.amount = 0)) := by
  unfold fixSpecificIssues
  split
  · next h =>
    refine ⟨rfl, List.filter_sublist, fun e he => ?_⟩
    rw [List.mem_filter]
    simp only [he, h, true_and, Bool.or_eq_true, decide_eq_true_eq]
    tauto
  · next h =>
    refine ⟨rfl, List.Sublist.refl _, fun e he => ?_⟩
    simp [he, h]

/-- C105: only the long distance transport of natural gas in the region without Germany, the Netherlands and Norway gets another location; nothing else changes. -/
theorem C105_pipeline (data : List Dataset) :
    List.Forall₂ (fun ds ds' => ds' = { ds with location := ds'.location } ∧
      ds'.location = if ds.location = "RER w/o DE+NL+NO" ∧ ds.type = .transforming ∧ ds.name = "transport, pipeline, long distance, natural gas" then "RER w/o DE+NL+NO+RU"
        else ds.location) data (correctPipelineLocation data) := by
  unfold correctPipelineLocation
  rw [List.forall₂_map_right_iff]
  refine List.forall₂_same.mpr fun ds _ => ?_
  by_cases h : ds.type = .transforming ∧ ds.name = "transport, pipeline, long distance, natural gas" ∧ ds.location = "RER w/o DE+NL+NO"
  · rw [if_pos h, if_pos ⟨h.2.2, h.1, h.2.1⟩]
    exact ⟨rfl, rfl⟩
  · rw [if_neg h, if_neg fun h' => h ⟨h'.2.1, h'.2.2, h'.1⟩]
    exact ⟨rfl, rfl⟩

/-- C105: exactly the activity links to the dataset that version 3.5 lacks are removed; nothing else changes. -/
theorem C105_link (data : List Dataset) :
    List.Forall₂ (fun ds ds' => ds' = { ds with exchanges := ds'.exchanges } ∧
      List.Forall₂ (fun e e' => e' = { e with activityLink := e'.activityLink } ∧
        ∀ l, e'.activityLink = some l ↔ e.activityLink = some l ∧ l ≠ "25edb027-d7c0-4756-a051-cab82e4f6248") ds.exchanges ds'.exchanges) data (fix35ActivityLinks data) := by
  unfold fix35ActivityLinks
  rw [List.forall₂_map_right_iff]
  refine List.forall₂_same.mpr fun ds _ => ⟨rfl, ?_⟩
  simp only
  rw [List.forall₂_map_right_iff]
  refine List.forall₂_same.mpr fun e _ => ?_
  by_cases h : e.activityLink = some removedLink35
  · rw [if_pos h]
    refine ⟨rfl, fun l => ?_⟩
    simp only [reduceCtorEq, false_iff, not_and, not_not, h]
    intro hl
    cases hl
    rfl
  · rw [if_neg h]
    refine ⟨rfl, fun l => ⟨fun hl => ⟨hl, ?_⟩, fun hl => hl.1⟩⟩
    rintro rfl
    exact h hl

/-! ## Formulas -/

/-- `t` is `s` with the occurrences of `pat`, taken from the left, exchanged for `rep`. -/
inductive Spec.Replaced (pat rep : Text) : Text → Text → Prop where
  | last {s : Text} : ¬ pat <:+: s → Replaced pat rep s s
  | next {a b t : Text} : (∀ a' b', a ++ pat ++ b = a' ++ pat ++ b' → a.length ≤ a'.length) → Replaced pat rep b t → Replaced pat rep (a ++ pat ++ b) (a ++ rep ++ t)

theorem first_occurrence {pat s : Text} (h : pat <:+: s) : ∃ a b, s = a ++ pat ++ b ∧ ∀ a' b', s = a' ++ pat ++ b' → a.length ≤ a'.length := by
  classical
  have hex : ∃ n a b, s = a ++ pat ++ b ∧ a.length = n := by
    obtain ⟨a, b, rfl⟩ := h
    exact ⟨_, a, b, rfl, rfl⟩
  obtain ⟨a, b, hs, hl⟩ := Nat.find_spec hex
  refine ⟨a, b, hs, fun a' b' hs' => ?_⟩
  rw [hl]
  exact Nat.find_min' hex ⟨a', b', hs', rfl⟩

theorem replaceAll_replaced {pat : Text} (hp : pat ≠ []) (rep s : Text) : Replaced pat rep s (replaceAll pat rep s) := by
  induction hn : s.length using Nat.strong_induction_on generalizing s with
  | _ n ih =>
    by_cases h : pat <:+: s
    · obtain ⟨a, b, rfl, hmin⟩ := first_occurrence h
      have hns : NoStart pat a (pat ++ b) := by
        intro u hu hua hpre
        obtain ⟨w, rfl⟩ := hua
        obtain ⟨r, hr⟩ := hpre
        have := hmin w r (by rw [List.append_assoc (w ++ u), List.append_assoc w u, ← hr, List.append_assoc])
        rw [List.length_append] at this
        have : u.length = 0 := by omega
        exact hu (List.length_eq_zero_iff.mp this)
      have heq : replaceAll pat rep (a ++ pat ++ b) = a ++ rep ++ replaceAll pat rep b := by
        rw [List.append_assoc, replaceAll_skip hns, replaceAll_hit hp, List.append_assoc]
      rw [heq]
      refine .next hmin (ih b.length ?_ b rfl)
      rw [← hn, List.length_append, List.length_append]
      have : 0 < pat.length := List.length_pos_iff.mpr hp
      omega
    · rw [replaceAll_none h]
      exact .last h

/-- C105: the formulas of the four listed activities have the listed text replaced, every occurrence; the formulas of other activities are unchanged, and so is everything
else: only `formula` differs, object by object. -/
theorem C105_formulas (ds : Dataset) : ∃ out, fixKnownBadFormulas ds = .ok out ∧
    out = { ds with exchanges := out.exchanges, parameters := out.parameters } ∧ List.Forall₂ SameExc ds.exchanges out.exchanges ∧
    (ds.name ∉ knownSubstitutions.map (·.1) → out = ds) ∧
    ∀ name bad good, (name, bad, good) ∈ knownSubstitutions → ds.name = name →
      List.Forall₂ (fun o o' => o' = { o with formula := o'.formula } ∧
        match o.formula, o'.formula with
        | none, none => True
        | some f, some f' => Replaced bad.toList good.toList f.toList f'.toList
        | _, _ => False) ds.numObjs out.numObjs := by
  have hone : ∀ row ∈ knownSubstitutions, ds.name = row.1 → fixKnownBadFormulas ds = fixKnownStep ds row := by
    intro row hrow hn
    have key : ∀ l : List (String × String × String), (l.map (·.1)).Nodup → ∀ d : Dataset, d.name = row.1 → row ∈ l → foldE fixKnownStep d l = fixKnownStep d row := by
      intro l
      have hoff : ∀ l : List (String × String × String), ∀ d : Dataset, d.name ∉ l.map (·.1) → foldE fixKnownStep d l = .ok d := by
        intro l
        induction l with
        | nil => intro d _; rfl
        | cons x l ih =>
          intro d hd
          simp only [List.map_cons, List.mem_cons, not_or] at hd
          rw [foldE, fixKnownStep, if_neg hd.1]
          exact ih d hd.2
      induction l with
      | nil => intro _ d _ h; simp at h
      | cons x l ih =>
        intro hnd d hd hmem
        simp only [List.map_cons, List.nodup_cons] at hnd
        rcases List.mem_cons.mp hmem with rfl | hmem
        · rw [foldE]
          obtain ⟨d', hd'⟩ : ∃ d', fixKnownStep d row = .ok d' := by
            rw [fixKnownStep, if_pos hd]
            exact Dataset.mapNumE_pure_ok _ d
          rw [hd']
          have hname : d'.name = d.name := by
            rw [fixKnownStep, if_pos hd] at hd'
            rw [(Dataset.mapNumE_inv hd').2.1]
          exact hoff l d' (by rw [hname, hd]; exact hnd.1)
        · have hx : d.name ≠ x.1 := by
            rintro hx
            exact hnd.1 (by rw [← hx, hd]; exact List.mem_map_of_mem hmem)
          rw [foldE, fixKnownStep, if_neg hx]
          exact ih hnd.2 d hd hmem
    exact key knownSubstitutions (by decide +kernel) ds hn hrow
  have hnone : ds.name ∉ knownSubstitutions.map (·.1) → fixKnownBadFormulas ds = .ok ds := by
    intro h
    have : ∀ l : List (String × String × String), ds.name ∉ l.map (·.1) → foldE fixKnownStep ds l = .ok ds := by
      intro l
      induction l with
      | nil => intro _; rfl
      | cons x l ih =>
        intro hd
        simp only [List.map_cons, List.mem_cons, not_or] at hd
        rw [foldE, fixKnownStep, if_neg hd.1]
        exact ih hd.2
    exact this _ h
  by_cases hin : ds.name ∈ knownSubstitutions.map (·.1)
  · obtain ⟨row, hrow, hn⟩ := List.mem_map.mp hin
    have hstep := hone row hrow hn.symm
    rw [fixKnownStep, if_pos hn.symm] at hstep
    obtain ⟨out, hout⟩ := Dataset.mapNumE_pure_ok (fixKnownObj row.2.1 row.2.2) ds
    obtain ⟨hm, hfr, hex, -⟩ := Dataset.mapNumE_inv hout
    refine ⟨out, by rw [hstep, hout], hfr, hex.imp fun e e' he => (Exchange.mapNumE_frame he).1, fun h => absurd hin h, ?_⟩
    intro name bad good hmem hname
    have hrow' : row = (name, bad, good) := by
      have : (knownSubstitutions.map (·.1)).Nodup := by decide +kernel
      exact List.inj_on_of_nodup_map this hrow hmem (by rw [hn, hname])
    subst hrow'
    have hbad : bad.toList ≠ [] := by
      have : ∀ r ∈ knownSubstitutions, r.2.1.toList ≠ [] := by decide +kernel
      exact this _ hmem
    refine (mapE_ok_iff.mp hm).imp fun o o' ho => ?_
    cases ho
    refine ⟨rfl, ?_⟩
    rcases hf : o.formula with _ | f
    · simp [fixKnownObj, hf]
    · simp only [fixKnownObj, hf, Option.map_some, String.toList_ofList]
      exact replaceAll_replaced hbad _ _
  · refine ⟨ds, hnone hin, rfl, List.forall₂_same.mpr fun e _ => ⟨rfl, List.forall₂_same.mpr fun _ _ => rfl, List.forall₂_same.mpr fun _ _ => rfl⟩, fun _ => rfl, ?_⟩
    intro name bad good hmem hname
    exact absurd (List.mem_map_of_mem hmem) (by rw [← hname]; exact hin)

/-- A formula of the benzene plant. -/
def Spec.benzene : Dataset :=
  { name := "benzene chlorination", exchanges := [{ name := "benzene", type := .referenceProduct, amount := 1, pv := some { amount := 1, formula := some "UnitConversion(152000000, 'pound avoirdupois', 'kg')" } }] }

example : ∃ out, fixKnownBadFormulas benzene = .ok out ∧ out.numObjs.map (·.formula) = [none, some "68949040.24"] := by
  refine ⟨{ benzene with exchanges := [{ name := "benzene", type := .referenceProduct, amount := 1, pv := some { amount := 1, formula := some "68949040.24" } }] }, by decide +kernel, by decide +kernel⟩

/-- C105 is false of the values: one hundred and fifty-two million pounds (of 0.45359237 kg) are not the number of kilograms written instead; three tonnes are added. -/
theorem C105_pounds : ("benzene chlorination", "UnitConversion(152000000, 'pound avoirdupois', 'kg')", "68949040.24") ∈ knownSubstitutions ∧
    (68949040.24 : ℚ) - 152000000 * 0.45359237 = 3000 := by
  refine ⟨by decide +kernel, by norm_num⟩

/-- C105: the two other numbers are right, the first to fifteen digits and the second to two decimals (cut off, not rounded). -/
theorem C105_numbers_partial :
    ("thermoforming of plastic sheets", "1/014000000/50*0.946", "1.3514285714285711e-09") ∈ knownSubstitutions ∧
    |(1.3514285714285711e-09 : ℚ) - 1 / 014000000 / 50 * 0.946| < 1e-23 ∧
    ("glued laminated timber production, for indoor use", "AVERAGE(3.08E04;4.00E04;3.39E04)*(AVERAGE(367561;433458;449963)/AVERAGE(1408383;1631979;1717500))", "9176.23") ∈ knownSubstitutions ∧
    (9176.23 : ℚ) ≤ (3.08E04 + 4.00E04 + 3.39E04) / 3 * ((367561 + 433458 + 449963) / 3 / ((1408383 + 1631979 + 1717500) / 3)) ∧
    (3.08E04 + 4.00E04 + 3.39E04) / 3 * ((367561 + 433458 + 449963) / 3 / ((1408383 + 1631979 + 1717500) / 3)) < (9176.24 : ℚ) := by
  refine ⟨by decide +kernel, ?_, by decide +kernel, by norm_num, by norm_num⟩
  rw [abs_lt]
  constructor <;> norm_num

/-- A refinery with an empty exchange of refinery gas, and the dataset with the wrong location. -/
example : (fixSpecificIssues { name := "petroleum refinery operation", exchanges := [{ name := "refinery gas", type := .byproduct, amount := 0 }, { name := "refinery gas", type := .byproduct, amount := 2 }, { name := "diesel", type := .byproduct, amount := 0 }] }).exchanges.map (·.name) =
    ["refinery gas", "diesel"] := by decide +kernel

example : (correctPipelineLocation [{ name := "transport, pipeline, long distance, natural gas", location := "RER w/o DE+NL+NO" }, { name := "transport", location := "RER w/o DE+NL+NO" }]).map (·.location) =
    ["RER w/o DE+NL+NO+RU", "RER w/o DE+NL+NO"] := by decide +kernel

example : (fix35ActivityLinks [{ name := "d", exchanges := [{ name := "a", type := .fromTechnosphere, amount := 1, activityLink := some "25edb027-d7c0-4756-a051-cab82e4f6248" }, { name := "b", type := .fromTechnosphere, amount := 1, activityLink := some "a" }] }]).map (fun d => d.exchanges.map (·.activityLink)) = [[none, some "a"]] := by
  decide +kernel

end Ocelot
