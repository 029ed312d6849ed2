import Verif.Proofs.RenamedRun
import Verif.Props.Units

/-! # C134: results do not depend on how activities are identified -/

namespace Ocelot
namespace Spec

/-- The order in which the library evaluates formulas, the iteration order of sets of locations and new identifiers do not depend on
the identifiers of activities. -/
structure Renaming.Blind (ρ : Renaming) (P : PipelineEnv) : Prop where
  ord : ∀ d, P.ord (ρ.ds d) = P.ord d
  set : ∀ d n l, P.σ (ρ.ds d) n l = P.σ d n l
  uuid : ∀ e, P.uuid (ρ.exc e) = P.uuid e

/-- An exchange without the activity it refers to. -/
def unreferred (e : Exchange) : Exchange := { e with activityLink := none }

/-- A result without identifiers: names, places, products, amounts, volumes, codes and links by code remain. -/
def anonymous : Item → Item
  | .ds d => .ds { d with id := "", parent := none, filepath := "", extra := [], exchanges := d.exchanges.map unreferred, suppliers := d.suppliers.map fun l => l.map unreferred }
  | .str s => .str s

end Spec

open Spec

/-- C134: any list of functions (nested in any way, so the configurations of all system models and any other) gives for renamed activities the
renamed result, or the same exception; whatever the data. -/
theorem C134 (ρ : Renaming) (hu : ρ.Proper) (P : PipelineEnv) (hP : ρ.Blind P) (config : List (FnItem Step)) (data : List Dataset) :
    runConfig P config (data.map ρ.ds) = (runConfig P config data).map fun l => l.map ρ.item := by
  have hs : Units.ER (Renamed.RIs ρ) (runConfig P config data) (runConfig P config (data.map ρ.ds)) := by
    rw [runConfig_eq, runConfig_eq]
    have := Renamed.start (ρ := ρ) data
    revert this
    generalize data.map Item.ds = x
    generalize (data.map ρ.ds).map Item.ds = x'
    generalize unwrapAll config = steps
    induction steps generalizing x x' with
    | nil => exact fun h => h
    | cons s steps ih => exact fun h => (Renamed.step_rel hu ⟨hP.ord, hP.set⟩ hP.uuid s x x' h).bind fun y y' hy => ih y y' hy
  revert hs
  cases runConfig P config data with
  | error e =>
    cases runConfig P config (data.map ρ.ds) with
    | error e' => intro hs; cases hs; rfl
    | ok r' => intro hs; cases hs
  | ok r =>
    cases runConfig P config (data.map ρ.ds) with
    | error e' => intro hs; cases hs
    | ok r' => intro hs; exact congrArg Except.ok (Renamed.all_item hs)

theorem anonymous_item (ρ : Renaming) (i : Item) : anonymous (ρ.item i) = anonymous i := by
  cases i with
  | str s => rfl
  | ds d =>
    have h : unreferred ∘ ρ.exc = unreferred := rfl
    simp only [Renaming.item, Renaming.ds, anonymous, List.map_map, Option.map_map, h]
    congr 2
    cases d.suppliers with
    | none => rfl
    | some l => simp [Function.comp_def, unreferred, Renaming.exc]

/-- C134: no name, place, amount, volume, code or link by code of the result depends on the identifiers. -/
theorem C134_anonymous (ρ : Renaming) (hu : ρ.Proper) (P : PipelineEnv) (hP : ρ.Blind P) (config : List (FnItem Step)) (data : List Dataset) :
    (runConfig P config (data.map ρ.ds)).map (fun l => l.map anonymous) = (runConfig P config data).map fun l => l.map anonymous := by
  rw [C134 ρ hu P hP config data]
  cases runConfig P config data with
  | error e => rfl
  | ok r => simp [Except.map, anonymous_item]

/-! ## Example -/

/-- Every identifier but the two fixed ones gets a prefix. -/
def exampleRenaming : Renaming :=
  ⟨fun s => if s = "" then "" else if s = removedLink35 then removedLink35 else "x" ++ s, fun s => "y" ++ s, fun l => ("z", "z") :: l⟩

theorem exampleRenaming_proper : exampleRenaming.Proper := by
  refine ⟨fun a b h => ?_, fun a b h => ?_, fun a b h => (List.cons.inj h).2, rfl, rfl⟩
  · simp only [exampleRenaming] at h
    have hx : ∀ s : String, "x" ++ s ≠ "" := fun s h => by simpa using congrArg String.toList h
    have hr : ∀ s : String, "x" ++ s ≠ removedLink35 := fun s h => by
      have := congrArg String.toList h
      rw [String.toList_append] at this
      have := congrArg List.head? this
      rw [show "x".toList = ['x'] from rfl, show removedLink35.toList.head? = some '2' from rfl] at this
      simp at this
    split at h
    · next ha =>
      split at h
      · next hb => rw [ha, hb]
      · split at h
        · exact absurd h (by decide)
        · exact absurd h.symm (hx b)
    · split at h
      · next ha =>
        split at h
        · exact absurd h (by decide)
        · split at h
          · next hb => rw [ha, hb]
          · exact absurd h.symm (hr b)
      · split at h
        · exact absurd h (hx a)
        · split at h
          · exact absurd h (hr a)
          · exact String.append_right_inj "x" |>.mp h
  · exact String.append_right_inj "y" |>.mp h

example : exampleRenaming.Blind exampleWorldP := ⟨fun _ => rfl, fun _ _ _ => rfl, fun _ => rfl⟩

/-- A consumer bound to one of two producers. -/
def exampleBound : List Dataset :=
  [exampleOf "p" "heat production" "RER" .transforming [exampleProduct "heat" 1 200],
   exampleOf "q" "heat production, wood" "US" .transforming [exampleProduct "heat" 1 150],
   exampleOf "m" "market for heat" "GLO" .market [exampleProduct "heat" 1 0],
   exampleOf "f" "car production" "US" .transforming [exampleProduct "car" 4 10, { name := "heat", id := "h", type := .fromTechnosphere, amount := 40, activityLink := some "q" }]]

/-- Identifiers, names, amounts, volumes and activity links of a result. -/
def exampleIds (data : List Dataset) : Option (List (String × List (String × ℚ × Option ℚ × Option String))) :=
  (runConfig exampleWorldP cutoffConfig data).toOption.map fun l => l.map fun
    | .ds d => (d.id, d.exchanges.map fun e => (e.name, e.amount, e.pv.map (·.amount), e.activityLink))
    | .str s => (s, [])

set_option synthInstance.maxSize 1000

example : exampleIds exampleBound = some
    [("p", [("heat", 1, some 200, none)]), ("q", [("heat", 1, some 50, none)]),
      ("m", [("heat", 1, some 250, none), ("heat", 4 / 5, none, none), ("heat", 1 / 5, none, none)]),
      ("f", [("car", 1, some 10, none), ("heat", 10, none, some "q")])] := by decide +kernel

example : exampleIds (exampleBound.map exampleRenaming.ds) = some
    [("xp", [("heat", 1, some 200, none)]), ("xq", [("heat", 1, some 50, none)]),
      ("xm", [("heat", 1, some 250, none), ("heat", 4 / 5, none, none), ("heat", 1 / 5, none, none)]),
      ("xf", [("car", 1, some 10, none), ("heat", 10, none, some "xq")])] := by decide +kernel

/-! ## What is excluded -/

/-- Exchanging an identifier with the fixed one. -/
def exampleSwap : Renaming := ⟨Equiv.swap "q" removedLink35, id, id⟩

/-- Without keeping the identifier that is written in the source: a link to an activity that happens to have it is dropped, which changes the
volumes and the shares of a market. -/
theorem C134_removed : ∃ (ρ : Renaming) (P : PipelineEnv) (data : List Dataset), Function.Injective ρ.id ∧ Function.Injective ρ.file ∧ Function.Injective ρ.extra ∧
    ρ.id "" = "" ∧ ρ.Blind P ∧
    (runConfig P cutoffConfig (data.map ρ.ds)).map (fun l => l.map itemAmounts) ≠ (runConfig P cutoffConfig data).map fun l => l.map itemAmounts := by
  refine ⟨exampleSwap, exampleWorldP, exampleBound, (Equiv.swap "q" removedLink35).injective, fun _ _ h => h, fun _ _ h => h, by decide +kernel,
    ⟨fun _ => rfl, fun _ _ _ => rfl, fun _ => rfl⟩, by decide +kernel⟩

/-- Without different identifiers for different activities the result is an exception. -/
theorem C134_injective : ∃ (ρ : Renaming) (P : PipelineEnv) (data : List Dataset), Function.Injective ρ.file ∧ Function.Injective ρ.extra ∧
    ρ.id "" = "" ∧ ρ.id removedLink35 = removedLink35 ∧ ρ.Blind P ∧
    (runConfig P cutoffConfig (data.map ρ.ds)).isOk ≠ (runConfig P cutoffConfig data).isOk := by
  refine ⟨⟨fun s => if s = "q" then "p" else s, id, id⟩, exampleWorldP, exampleBound, fun _ _ h => h, fun _ _ h => h, by decide +kernel, by decide +kernel,
    ⟨fun _ => rfl, fun _ _ _ => rfl, fun _ => rfl⟩, by decide +kernel⟩

/-- Without different metadata for different datasets: the functions compare whole datasets to find the group that is being updated, so other datasets
can be taken for the same one. -/
theorem C134_compared : ∃ (ρ : Renaming) (data : List Dataset), Function.Injective ρ.id ∧ Function.Injective ρ.file ∧ ρ.id "" = "" ∧ ρ.id removedLink35 = removedLink35 ∧
    deleteGlobalZeroPv .market (data.map ρ.ds) ≠ (deleteGlobalZeroPv .market data).map fun l => l.map ρ.ds := by
  let row : Dataset := { name := "market for heat", location := "RoW", type := .market, refProduct := some "heat", exchanges := [{ name := "heat", type := .referenceProduct, amount := 1, pv := some { amount := 0 } }] }
  refine ⟨⟨id, id, fun _ => []⟩, [row, { row with location := "RER" }, { row with extra := [("a", "b")] }], fun _ _ h => h, fun _ _ h => h, rfl, rfl, by decide +kernel⟩

end Ocelot
