import Verif.Proofs.ConstrainedRun
import Verif.Props.ProgressConsequential

/-!
# C119: constrained markets stop the consequential model

A constrained market is documented (constrained_markets.py:15-36) as a market with a byproduct of negative amount that is linked to a transforming
activity which has the same product as an input. Inputs have no production volume. The activity becomes a producer of that product,
and the first market that takes its suppliers from it asks for the volume.
-/

namespace Ocelot
open Spec Progress

/-- **C119** is false: for every database that can be read, a constrained exchange `c` whose target `t` has the product as an input without production volume
makes the run fail, if there is a market `m` for the product around `t` and no activity that has the product among its exchanges has a better
technology level than `t`. -/
theorem C119_stops {P : PipelineEnv} (hT : WellFormed P.T) (hne : NoEmptyPlaces P.T) (hσ : IterationOrder P.σ) {data : List Dataset} (hl : Legible P data)
    (ho : OwnTargets data) {t m : Dataset} {c : Exchange} {lv : String} {fm fs : Finset ℕ}
    (ht : t ∈ data) (htt : t.type = .transforming) (hc : condsTo t.id data = [c]) (hca : c.amount ≠ 0) (hpv : ∀ e ∈ t.exchanges, e.name = c.name → e.pv = none)
    (hlv : t.technologyLevel = some lv) (hlo : lv ∈ technologyOrder)
    (hbest : ∀ d ∈ data, d.type = .transforming → (∃ e ∈ d.exchanges, e.name = c.name) → ∃ l, d.technologyLevel = some l ∧ ¬ BetterLevel l lv)
    (hm : m ∈ data) (hmt : m.type = .market) (hmp : ∀ r ∈ refs m, r.name = c.name ∧ r.conditional ≠ some true) (hmc : condsTo m.id data = [])
    (hms : m.suppliers = none) (hmk : ¬ (m.location = "GLO" ∧ m.name ∈ canDeleteMarkets))
    (hone : m.location ≠ "GLO" ∨ (data.filter fun o => decide (o.name = m.name)) = [m])
    (hfm : HasFaces P.T m.location fm) (hfs : HasFaces P.T t.location fs) (hsub : fs ⊆ fm) : ∃ e, runConfig P consequentialConfig data = .error e := by
  cases h : runConfig P consequentialConfig data with
  | error e => exact ⟨e, rfl⟩
  | ok out => exact absurd h (constrained_run hT hne hσ hl ho ht htt hc hca hpv hlv hlo hbest hm hmt hmp hmc hms hmk hone hfm hfs hsub out)

/-- C119, whatever the cause: the functions after `handle_constrained_markets` succeed only if every transforming activity with the best technology level
among the producers of its product, in the place of a market for the product, has a production volume. -/
theorem C119_volumes_needed {P : PipelineEnv} (hT : WellFormed P.T) (hne : NoEmptyPlaces P.T) (hσ : IterationOrder P.σ) {data : List Dataset} {out : List Item}
    (h : runSteps P ([.labelReferenceProduct, .deleteWhitelistedMarkets, .assignFakePv, .relabelGlobalToRow, .addUniqueCodes] ++ consequentialAfter) data = .ok out)
    {m t : Dataset} {x : Exchange} {lv : String} {fm fs : Finset ℕ}
    (hm : m ∈ data) (hmt : m.type = .market) (hms : m.suppliers = none) (hmk : ¬ (m.location = "GLO" ∧ m.name ∈ canDeleteMarkets))
    (hone : m.location ≠ "GLO" ∨ (data.filter fun o => decide (o.name = m.name)) = [m])
    (ht : t ∈ data) (htt : t.type = .transforming) (hx : refs t = [x]) (hp : product m = x.name) (hlv : t.technologyLevel = some lv) (hlo : lv ∈ technologyOrder)
    (hbest : ∀ d ∈ data, d.type = .transforming → ∀ e, refs d = [e] → e.name = x.name → ∃ l, d.technologyLevel = some l ∧ ¬ BetterLevel l lv)
    (hfm : HasFaces P.T m.location fm) (hfs : HasFaces P.T t.location fs) (hsub : fs ⊆ fm) : x.pv.isSome :=
  volumes_needed hT hne hσ h hm hmt hms hmk hone ht htt hx hp hlv hlo hbest hfm hfs hsub

/-! ## Example -/

/-- The market for glycerine, the exchange that constrains the market for soap, and the activity it is linked to. -/
def exampleGlycerine : Dataset := exampleOf "n" "market for glycerine" "GLO" .market [exampleProduct "glycerine" 1 0]
def exampleConstraint : Exchange :=
  { name := "glycerine", id := "y", type := .byproduct, cls := some .waste, amount := -1/5, conditional := some true, activityLink := some "k" }
def exampleActivity : Dataset :=
  exampleOf "k" "soap production, from glycerine" "DE" .transforming [exampleProduct "soap" 1 20, { name := "glycerine", id := "z", type := .fromTechnosphere, amount := 2 }]

/-- The database of C113 with a market for soap that is constrained by glycerine. -/
def exampleDbS : List Dataset := exampleDbC ++
  [exampleGlycerine, exampleOf "o" "market for soap" "GLO" .market [exampleProduct "soap" 1 0, exampleConstraint], exampleActivity,
   { exampleOf "q" "glycerine production" "US" .transforming [exampleProduct "glycerine" 1 30] with technologyLevel := some "old" }]

instance (a b : String) : Decidable (BetterLevel a b) :=
  decidable_of_iff (∃ i ∈ List.range 5, ∃ j ∈ List.range 5, i < j ∧ technologyOrder[i]? = some a ∧ technologyOrder[j]? = some b) (by
    constructor
    · rintro ⟨i, -, j, -, h⟩
      exact ⟨i, j, h⟩
    · rintro ⟨i, j, h, h1, h2⟩
      have h3 : j < technologyOrder.length := List.getElem?_eq_some_iff.mp h2 |>.1
      have h4 : technologyOrder.length = 5 := rfl
      exact ⟨i, by rw [List.mem_range]; omega, j, by rw [List.mem_range]; omega, h, h1, h2⟩)

instance (P : PipelineEnv) (data : List Dataset) : Decidable (Legible P data) :=
  decidable_of_iff ((data.map (·.id)).Nodup ∧ (∀ d ∈ data, (varNames d).Nodup) ∧
      (∀ d ∈ data, (fixEcoinventParameters P.M P.text (noted d)).toOption.isSome = true) ∧
      (∀ d ∈ data, (refs d).length = 1 ∧ ∀ r ∈ refs d, r.pv.isSome = true ∧ r.amount ≠ 0) ∧
      (∀ d ∈ data, ∀ e ∈ d.exchanges, e.type = .byproduct → e.cls ≠ none ∧ (e.cls = some .allocatable → e.pv.isSome = true)) ∧
      (∀ d ∈ data, d.type = .market → (refs d).length = 1 → ∀ r ∈ refs d, ∀ e ∈ d.exchanges, e.name = r.name → e ≠ r → e.activityLink.getD "" ≠ "")) (by
    have key : ∀ d : Dataset, ((refs d).length = 1 → ∀ r ∈ refs d, ∀ e ∈ d.exchanges, e.name = r.name → e ≠ r → e.activityLink.getD "" ≠ "") ↔
        ∀ r, refs d = [r] → ∀ e ∈ d.exchanges, e.name = r.name → e ≠ r → e.activityLink.getD "" ≠ "" := by
      intro d
      constructor
      · intro h r hr
        exact h (by rw [hr]; rfl) r (by rw [hr]; simp)
      · intro h hl r hr
        obtain ⟨r', hr'⟩ := List.length_eq_one_iff.mp hl
        rw [hr'] at hr
        cases List.mem_singleton.mp hr
        exact h r hr'
    constructor
    · rintro ⟨h1, h2, h3, h4, h5, h7⟩
      exact ⟨h1, h2, fun d hd => isOk_iff.mp (h3 d hd), fun d hd => one_ref.mp (h4 d hd), h5, fun d hd ht => (key d).mp (h7 d hd ht)⟩
    · rintro ⟨h1, h2, h3, h4, h5, h7⟩
      exact ⟨h1, h2, fun d hd => isOk_iff.mpr (h3 d hd), fun d hd => one_ref.mpr (h4 d hd), h5, fun d hd ht => (key d).mpr (h7 d hd ht)⟩)

/-- The conditions of `C119_stops`; the constrained exchange is in the documented form. -/
example : (∃ e, runConfig exampleWorldP consequentialConfig exampleDbS = .error e) ∧
    (exampleConstraint.type = .byproduct ∧ exampleConstraint.amount < 0 ∧ exampleConstraint.conditional = some true ∧ exampleConstraint ∈ condsTo "k" exampleDbS) := by
  refine ⟨C119_stops (t := exampleActivity) (m := exampleGlycerine) (c := exampleConstraint) (lv := "current") (fm := {1, 2, 3, 4}) (fs := {1})
    (by unfold WellFormed; decide +kernel) ?_ (fun _ _ _ => .refl _) (by decide +kernel) (by unfold OwnTargets; decide +kernel)
    (by decide +kernel) (by decide +kernel) (by decide +kernel) (by decide +kernel) (by decide +kernel) (by decide +kernel) (by decide +kernel) ?_
    (by decide +kernel) (by decide +kernel) (by decide +kernel) (by decide +kernel) (by decide +kernel) (by decide +kernel) (.inr (by decide +kernel)) ?_ ?_ (by decide +kernel), ?_⟩
  · intro loc fs h h0
    subst h0
    have : ∀ p ∈ exampleWorldP.T.data, p.2 ≠ ∅ := by decide +kernel
    exact this _ h rfl
  · have : ∀ d ∈ exampleDbS, d.type = .transforming → (∃ e ∈ d.exchanges, e.name = exampleConstraint.name) → d.technologyLevel = some "current" ∨ d.technologyLevel = some "old" := by decide +kernel
    intro d hd h1 h2
    rcases this d hd h1 h2 with h | h
    · exact ⟨_, h, by decide +kernel⟩
    · exact ⟨_, h, by decide +kernel⟩
  · exact List.mem_cons_self
  · simp [HasFaces, exampleWorldP, exampleActivity, exampleOf]
  · decide +kernel

/-! The exception, and the database without the constrained market, or with a volume for the input. -/
example : exampleFailureC exampleDbS = some .keyError := by decide +kernel

example : exampleFailureC (exampleDbS.map fun d => if d.id = "o" then { d with exchanges := d.exchanges.take 1 } else d) = none := by decide +kernel

example : exampleFailureC (exampleDbS.map fun d => if d.id = "k" then { d with exchanges := d.exchanges.map fun e => if e.name = "glycerine" then { e with pv := some { amount := 4 } } else e } else d) = none := by decide +kernel

end Ocelot
