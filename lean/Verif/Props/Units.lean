import Verif.Proofs.UnitsRun
import Verif.Props.References
import Verif.Props.Progress

/-! # C129: results do not depend on the units of volumes and prices, and are linear in elementary flows -/

namespace Ocelot
namespace Spec

/-- Input for which other units make sense: the numbers in question are plain (`Units.Fits`), nothing is linked yet, no activity is in
the list of confidential ones (which get the production volume 1 in any unit), and no formula refers to another object by identifier. -/
structure Units.Input (u : Units) (data : List Dataset) : Prop where
  exchanges : ∀ d ∈ data, ∀ e ∈ d.exchanges, u.Fits e
  suppliers : ∀ d ∈ data, d.suppliers = none
  names : ∀ d ∈ data, d.name ∉ confidentialNames
  references : ∀ d ∈ data, ∀ o ∈ d.numObjs, ∀ f, o.formula = some f → ∀ string i, ¬ AmountRef f.toList string i ∧ ¬ VolumeRef f.toList string i

/-- The order in which the library evaluates formulas and the iteration order of sets do not depend on the units. -/
structure Units.Blind (u : Units) (P : PipelineEnv) : Prop where
  ord : ∀ d, P.ord (u.ds d) = P.ord d
  set : ∀ d n l, P.σ (u.ds d) n l = P.σ d n l

/-- An exchange without the values that have a unit of volumes or prices. -/
def unitless (e : Exchange) : Exchange := { e with pv := none, properties := [] }

/-- A result without production volumes, properties and suppliers. -/
def bareItem : Item → Item
  | .ds d => .ds { d with exchanges := d.exchanges.map unitless, suppliers := none }
  | .str s => .str s

end Spec

open Spec

namespace Units

theorem refs_nil {f : Text} (h : ∀ string i, ¬ AmountRef f string i ∧ ¬ VolumeRef f string i) : exchangeReferences f = [] ∧ pvReferences f = [] := by
  constructor
  · refine List.eq_nil_iff_forall_not_mem.mpr fun p hp => ?_
    exact (h p.1 p.2).1 (mem_exchangeReferences.mp hp)
  · refine List.eq_nil_iff_forall_not_mem.mpr fun p hp => ?_
    exact (h p.1 p.2).2 (mem_pvReferences.mp hp)

theorem start {u : Spec.Units} {nr : Bool} {data : List Dataset} (h : u.Input data) (hnr : nr = true → ∀ d ∈ data, ∀ e ∈ d.exchanges, ¬ RecyclableOutput e) :
    RIs0 u nr (data.map .ds) ((data.map u.ds).map .ds) := by
  constructor
  · refine ds_rel ?_
    have : ∀ l : List Dataset, (∀ d ∈ l, d ∈ data) → List.Forall₂ (RD u nr All) l (l.map u.ds) := by
      intro l hl
      induction l with
      | nil => exact .nil
      | cons d l ih =>
        have hd := hl d (by simp)
        refine .cons ⟨d.exchanges.map u.exc, d.suppliers.map fun l => l.map u.exc, rfl, ?_, h.names d hd, fun _ => ?_⟩ (ih fun x hx => hl x (by simp [hx]))
        · exact list_iff.mpr ⟨fun e he => ⟨h.exchanges d hd e he, fun ht => hnr ht d hd e he⟩, rfl⟩
        · rw [h.suppliers d hd]; exact .none
    exact this data fun _ h => h
  · intro d hd
    have hd : d ∈ data := by simpa using hd
    exact fun o ho f hf => refs_nil (h.references d hd o ho f hf)

theorem all_item {u : Spec.Units} {nr : Bool} {x x' : List Item} (h : RIs u nr All x x') : x' = x.map u.item := by
  induction h with
  | nil => rfl
  | cons h _ ih =>
    rw [List.map_cons, ih]
    cases h with
    | ds h => rw [h.eq trivial]; rfl
    | str s => rfl

theorem none_item {u : Spec.Units} {nr : Bool} {K : DsType → Prop} {x x' : List Item} (h : RIs u nr K x x') :
    x'.map withoutSuppliers = x.map fun i => withoutSuppliers (u.item i) := by
  induction h with
  | nil => rfl
  | cons h _ ih =>
    rw [List.map_cons, List.map_cons, ih]
    cases h with
    | ds h =>
      obtain ⟨ex', s', rfl, hex, -⟩ := h
      rw [(list_iff.mp hex).2]
      rfl
    | str s => rfl

end Units

/-! ## The theorems -/

/-- C129, cut-off system model (either configuration). Full statement: whatever the input, running the model on the same data in other units
gives the same result in these units (lists of suppliers, which are not exported, left aside), or the same exception.

Proved for input that satisfies `Units.Input` and has no recyclable byproducts. What is missing is false: confidential activities and new datasets
for recycled content get fixed production volumes (`C129_confidential`, `C129_recycled`), and formulas that mix quantities of different units can mean
anything. -/
theorem C129_cutoff_partial (u : Spec.Units) (hu : u.Proper) (P : PipelineEnv) (hP : u.Blind P) (config : List (FnItem Step))
    (hc : config = cutoffConfig ∨ config = cutoffConfigRow) (data : List Dataset) (h : u.Input data)
    (hr : ∀ d ∈ data, ∀ e ∈ d.exchanges, ¬ RecyclableOutput e) :
    (runConfig P config (data.map u.ds)).map (fun l => l.map withoutSuppliers) =
      (runConfig P config data).map fun l => l.map fun i => withoutSuppliers (u.item i) := by
  have hs := Units.ph_cutoff (P := P) hu ⟨hP.ord, hP.set⟩ _ _ (Units.start (nr := true) h fun _ => hr)
  have hun : unwrapAll config = cutoffBefore ++ .addUniqueCodes :: (cutoffLinking ++ cutoffEnd) := by
    rcases hc with rfl | rfl
    · exact cutoff_unwrapped
    · exact cutoffRow_unwrapped
  rw [← hun, ← runConfig_eq, ← runConfig_eq] at hs
  revert hs
  cases runConfig P config data with
  | error e =>
    cases runConfig P config (data.map u.ds) with
    | error e' => intro hs; cases hs; rfl
    | ok r' => intro hs; cases hs
  | ok r =>
    cases runConfig P config (data.map u.ds) with
    | error e' => intro hs; cases hs
    | ok r' => intro hs; exact congrArg Except.ok (Units.none_item hs)

/-- C129, consequential system model: the same with recyclable byproducts and all lists of suppliers. -/
theorem C129_consequential_partial (u : Spec.Units) (hu : u.Proper) (P : PipelineEnv) (hP : u.Blind P) (data : List Dataset) (h : u.Input data) :
    runConfig P consequentialConfig (data.map u.ds) = (runConfig P consequentialConfig data).map fun l => l.map u.item := by
  have hs := Units.ph_consequential (P := P) hu ⟨hP.ord, hP.set⟩ _ _ (Units.start (nr := false) h fun h => by cases h)
  rw [← consequential_unwrapped, ← runConfig_eq, ← runConfig_eq] at hs
  revert hs
  cases runConfig P consequentialConfig data with
  | error e =>
    cases runConfig P consequentialConfig (data.map u.ds) with
    | error e' => intro hs; cases hs; rfl
    | ok r' => intro hs; cases hs
  | ok r =>
    cases runConfig P consequentialConfig (data.map u.ds) with
    | error e' => intro hs; cases hs
    | ok r' => intro hs; exact congrArg Except.ok (Units.all_item hs)

theorem bare_units {u : Spec.Units} (hf : ∀ i, u.flow i = 1) (i : Item) : bareItem (u.item i) = bareItem i := by
  cases i with
  | str s => rfl
  | ds d =>
    simp only [Spec.Units.item, Spec.Units.ds, bareItem, List.map_map]
    congr 2
    refine List.map_congr_left fun e _ => ?_
    simp [Function.comp, unitless, Spec.Units.exc, hf]

theorem bare_suppliers (i : Item) : bareItem (withoutSuppliers i) = bareItem i := by cases i <;> rfl

/-- C129: measuring production volumes and prices in other units changes no amount, link, name or code of the result, and no exception. -/
theorem C129_amounts_partial (u : Spec.Units) (hu : u.Proper) (hf : ∀ i, u.flow i = 1) (P : PipelineEnv) (hP : u.Blind P) (config : List (FnItem Step))
    (hc : config = cutoffConfig ∨ config = cutoffConfigRow ∨ config = consequentialConfig) (data : List Dataset) (h : u.Input data)
    (hr : ∀ d ∈ data, ∀ e ∈ d.exchanges, ¬ RecyclableOutput e) :
    (runConfig P config (data.map u.ds)).map (fun l => l.map bareItem) = (runConfig P config data).map fun l => l.map bareItem := by
  have key : ∀ {x y : Except Err (List Item)}, (x.map fun l => l.map withoutSuppliers) = (y.map fun l => l.map fun i => withoutSuppliers (u.item i)) →
      (x.map fun l => l.map bareItem) = y.map fun l => l.map bareItem := by
    intro x y hxy
    cases x with
    | error e =>
      cases y with
      | error e' => cases hxy; rfl
      | ok r' => cases hxy
    | ok r =>
      cases y with
      | error e' => cases hxy
      | ok r' =>
        have h1 : r.map withoutSuppliers = r'.map fun i => withoutSuppliers (u.item i) := by
          have := hxy; simp only [Except.map, Except.ok.injEq] at this; exact this
        have h2 := congrArg (List.map bareItem) h1
        rw [List.map_map, List.map_map] at h2
        simp only [Except.map, Except.ok.injEq]
        rw [show (bareItem ∘ withoutSuppliers) = bareItem from funext bare_suppliers] at h2
        rw [h2]
        refine List.map_congr_left fun i _ => ?_
        rw [Function.comp_apply, bare_suppliers, bare_units hf]
  rcases hc with hc | hc | hc
  · exact key (C129_cutoff_partial u hu P hP config (.inl hc) data h hr)
  · exact key (C129_cutoff_partial u hu P hP config (.inr hc) data h hr)
  · subst hc
    refine key ?_
    rw [C129_consequential_partial u hu P hP data h]
    cases runConfig P consequentialConfig data with
    | error e => rfl
    | ok r => simp [Except.map, Function.comp_def]

/-! ## What is excluded -/

/-- A confidential activity gets the volume 1 in every unit. -/
theorem C129_confidential : ∃ (u : Spec.Units) (d : Dataset), u.Proper ∧ (∀ e ∈ d.exchanges, u.Fits e) ∧
    assignFakePv (u.ds d) ≠ (assignFakePv d).map u.ds := by
  refine ⟨⟨1000, 1, fun _ => 1⟩, { name := "latex production", exchanges := [{ name := "latex", type := .referenceProduct, amount := 1, pv := some { amount := 5 } }] },
    ⟨by norm_num, by norm_num, fun _ => by norm_num, rfl⟩, ?_, by decide +kernel⟩
  intro e he
  simp only [List.mem_singleton] at he
  subst he
  exact ⟨fun h => absurd rfl h, fun p hp => (by cases hp; exact ⟨rfl, rfl, rfl⟩), fun p hp => (by cases hp)⟩

/-- A new dataset for recycled content gets a fixed volume. -/
theorem C129_recycled : ∃ (u : Spec.Units) (d : Dataset) (e : Exchange), u.Proper ∧ u.Fits e ∧
    newRecycledContentDataset (u.ds d) (u.exc e) ≠ (newRecycledContentDataset d e).map u.ds := by
  refine ⟨⟨1000, 1, fun _ => 1⟩, { name := "combustion", startDate := some "2000", endDate := some "2010", technologyLevel := some "current" },
    { name := "ash", type := .byproduct, cls := some .recyclable, amount := 1 }, ⟨by norm_num, by norm_num, fun _ => by norm_num, rfl⟩, ?_, by decide +kernel⟩
  exact ⟨fun h => absurd rfl h, fun p hp => (by cases hp), fun p hp => (by cases hp)⟩

/-- The only supplier of a market gets a fixed volume if it has none, so lists of suppliers are left aside in the cut-off model. -/
theorem C129_default : ∃ (u : Spec.Units) (d : Dataset), u.Proper ∧ allocateSuppliers (u.ds d) ≠ (allocateSuppliers d).map u.ds := by
  refine ⟨⟨1000, 1, fun _ => 1⟩, { name := "market for steel", type := .market, refProduct := some "steel", exchanges := [{ name := "steel", type := .referenceProduct, amount := 1 }], suppliers := some [{ name := "steel", type := .referenceProduct, amount := 1, code := some "a", location := some "RER", pv := some { amount := 0 } }] },
    ⟨by norm_num, by norm_num, fun _ => by norm_num, rfl⟩, by decide +kernel⟩

/-! ## Example -/

/-- Volumes in grams, prices in cents, ore in pounds. -/
def exampleUnits : Spec.Units := ⟨1000, 100, fun i => if i = "ore" then 22 / 10 else 1⟩

/-- Two products with prices, markets for both, a consumer, and an elementary flow. -/
def exampleMeasured : List Dataset :=
  [exampleOf "p" "heat and power co-generation" "RER" .transforming [{ exampleProduct "electricity" 10 200 with properties := [{ name := "price", amount := 1/10 }] }, exampleCoproduct "heat" 20 50 (1/20), { name := "ore", id := "ore", type := .fromEnvironment, amount := 6 }],
   exampleOf "q" "heat production" "US" .transforming [exampleProduct "heat" 1 150],
   exampleOf "m" "market for heat" "GLO" .market [exampleProduct "heat" 1 0],
   exampleOf "f" "car production" "US" .transforming [exampleProduct "car" 4 10, { name := "heat", id := "h", type := .fromTechnosphere, amount := 12 }]]

example : exampleUnits.Proper :=
  ⟨by norm_num [exampleUnits], by norm_num [exampleUnits], fun i => by simp only [exampleUnits]; split <;> norm_num, by decide +kernel⟩

example : exampleUnits.Blind exampleWorldP := ⟨fun _ => rfl, fun _ _ _ => rfl⟩

instance (o : NumObj) : Decidable (PlainObj o) := by unfold PlainObj; infer_instance

theorem fits_of {u : Spec.Units} {e : Exchange} (h : (u.flow e.id = 1 ∨ ((e.type = .fromEnvironment ∨ e.type = .toEnvironment) ∧ PlainObj e.toNumObj ∧
    e.conditional ≠ some true ∧ e.activityLink.getD "" = "")) ∧ (∀ p ∈ e.pv, PlainObj p.toNumObj) ∧ ∀ p ∈ e.properties, p.name = "price" → PlainObj p.toNumObj) : u.Fits e :=
  ⟨fun hn => h.1.resolve_left hn, fun p hp => h.2.1 p hp, h.2.2⟩

example : exampleUnits.Input exampleMeasured ∧ ∀ d ∈ exampleMeasured, ∀ e ∈ d.exchanges, ¬ RecyclableOutput e := by
  refine ⟨⟨?_, by decide +kernel, by decide +kernel, ?_⟩, by unfold RecyclableOutput; decide +kernel⟩
  · have : ∀ d ∈ exampleMeasured, ∀ e ∈ d.exchanges, (exampleUnits.flow e.id = 1 ∨ ((e.type = .fromEnvironment ∨ e.type = .toEnvironment) ∧ PlainObj e.toNumObj ∧
      e.conditional ≠ some true ∧ e.activityLink.getD "" = "")) ∧ (∀ p ∈ e.pv, PlainObj p.toNumObj) ∧ ∀ p ∈ e.properties, p.name = "price" → PlainObj p.toNumObj := by
      decide +kernel
    exact fun d hd e he => fits_of (this d hd e he)
  · have : ∀ d ∈ exampleMeasured, ∀ o ∈ d.numObjs, o.formula = none := by decide +kernel
    intro d hd o ho f hf
    rw [this d hd o ho] at hf; cases hf

/-- Names, products, amounts and volumes of a result. -/
def exampleView (config : List (FnItem Step)) (data : List Dataset) : Option (List (String × List (String × ℚ × Option ℚ))) :=
  (runConfig exampleWorldP config data).toOption.map fun l => l.map fun
    | .ds d => (d.name, d.exchanges.map fun e => (e.name, e.amount, e.pv.map (·.amount)))
    | .str s => (s, [])

set_option synthInstance.maxSize 1000

example : exampleView cutoffConfig exampleMeasured = some
    [("heat and power co-generation", [("electricity", 1, some 200), ("heat", 0, none), ("ore", 3 / 10, none)]),
      ("heat and power co-generation", [("heat", 1, some 50), ("electricity", 0, none), ("ore", 3 / 20, none)]),
      ("heat production", [("heat", 1, some 150)]),
      ("market for heat", [("heat", 1, some 200), ("heat", 1 / 4, none), ("heat", 3 / 4, none)]),
      ("car production", [("car", 1, some 10), ("heat", 3, none)])] := by decide +kernel

example : exampleView cutoffConfig (exampleMeasured.map exampleUnits.ds) = some
    [("heat and power co-generation", [("electricity", 1, some 200000), ("heat", 0, none), ("ore", 33 / 50, none)]),
      ("heat and power co-generation", [("heat", 1, some 50000), ("electricity", 0, none), ("ore", 33 / 100, none)]),
      ("heat production", [("heat", 1, some 150000)]),
      ("market for heat", [("heat", 1, some 200000), ("heat", 1 / 4, none), ("heat", 3 / 4, none)]),
      ("car production", [("car", 1, some 10000), ("heat", 3, none)])] := by decide +kernel

/-! ## The full statement is false -/

/-- A confidential producer and another one. -/
def exampleLatex : List Dataset :=
  [exampleOf "p" "latex production" "RER" .transforming [exampleProduct "latex" 1 5],
   exampleOf "q" "latex production, natural" "US" .transforming [exampleProduct "latex" 1 5],
   exampleOf "m" "market for latex" "GLO" .market [exampleProduct "latex" 1 0]]

theorem latex_view : exampleView cutoffConfig exampleLatex = some [("latex production", [("latex", 1, some 1)]), ("latex production, natural", [("latex", 1, some 5)]),
      ("market for latex", [("latex", 1, some 6), ("latex", 1 / 6, none), ("latex", 5 / 6, none)])] ∧
    exampleView cutoffConfig (exampleLatex.map (Spec.Units.ds ⟨1000, 1, fun _ => 1⟩)) = some [("latex production", [("latex", 1, some 1)]), ("latex production, natural", [("latex", 1, some 5000)]),
      ("market for latex", [("latex", 1, some 5001), ("latex", 1 / 5001, none), ("latex", 5000 / 5001, none)])] := by
  decide +kernel

/-- The amounts of a result. -/
def itemAmounts : Item → List ℚ
  | .ds d => d.exchanges.map (·.amount)
  | .str _ => []

/-- With a confidential activity, the shares of a market depend on the unit of production volumes. -/
theorem C129_false : ∃ (u : Spec.Units) (P : PipelineEnv) (data : List Dataset), u.Proper ∧ u.Blind P ∧ (∀ i, u.flow i = 1) ∧
    (∀ d ∈ data, ∀ e ∈ d.exchanges, u.Fits e ∧ ¬ RecyclableOutput e) ∧
    (runConfig P cutoffConfig (data.map u.ds)).map (fun l => l.map itemAmounts) ≠ (runConfig P cutoffConfig data).map fun l => l.map itemAmounts := by
  refine ⟨⟨1000, 1, fun _ => 1⟩, exampleWorldP, exampleLatex, ⟨by norm_num, by norm_num, fun _ => by norm_num, rfl⟩, ⟨fun _ => rfl, fun _ _ _ => rfl⟩, fun _ => rfl, ?_, ?_⟩
  · have : ∀ d ∈ exampleLatex, ∀ e ∈ d.exchanges, (∀ p ∈ e.pv, PlainObj p.toNumObj) ∧ (∀ p ∈ e.properties, p.name = "price" → PlainObj p.toNumObj) ∧
        ¬ (e.type = .byproduct ∧ e.cls = some .recyclable) := by decide +kernel
    exact fun d hd e he => ⟨⟨fun h => absurd rfl h, fun p hp => (this d hd e he).1 p hp, (this d hd e he).2.1⟩, (this d hd e he).2.2⟩
  · decide +kernel

end Ocelot
