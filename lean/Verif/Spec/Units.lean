import Verif.Model.Combined

/-! Measuring the input in other units. -/

namespace Ocelot
namespace Spec

/-- Other units: every production volume is multiplied by `volume`, every price by `price`, and the amount of the exchange with
identifier `i` by `flow i`. -/
structure Units where
  volume : ℚ
  price : ℚ
  flow : String → ℚ

/-- A production volume in other units. -/
def Units.pv (u : Units) (p : PV) : PV :=
  { p with
    amount := u.volume * p.amount
    subtracted := p.subtracted.map fun x => u.volume * x
    originalAmount := p.originalAmount.map fun x => u.volume * x
    globalAmount := p.globalAmount.map fun x => u.volume * x
    originalTotal := p.originalTotal.map fun x => u.volume * x }

/-- A property in other units: only prices change. -/
def Units.prop (u : Units) (p : Prop') : Prop' :=
  { p with amount := if p.name = "price" then u.price * p.amount else p.amount }

/-- An exchange in other units. -/
def Units.exc (u : Units) (e : Exchange) : Exchange :=
  { e with amount := u.flow e.id * e.amount, pv := e.pv.map u.pv, properties := e.properties.map u.prop }

/-- A dataset in other units. -/
def Units.ds (u : Units) (d : Dataset) : Dataset :=
  { d with exchanges := d.exchanges.map u.exc, suppliers := d.suppliers.map fun l => l.map u.exc }

/-- An element of a list of results in other units. -/
def Units.item (u : Units) : Item → Item
  | .ds d => .ds (u.ds d)
  | .str s => .str s

/-- The factors are positive, and exchanges without identifier do not change. -/
structure Units.Proper (u : Units) : Prop where
  volume : 0 < u.volume
  price : 0 < u.price
  flow : ∀ i, 0 < u.flow i
  noId : u.flow "" = 1

/-- A number that does not take part in parameterization: no formula, no variable, no uncertainty. -/
def PlainObj (o : NumObj) : Prop := o.formula = none ∧ o.var = none ∧ o.uncertainty = none

/-- What is measured in other units are the amounts of unlinked elementary flows, production volumes and prices, all of which are
plain numbers. -/
structure Units.Fits (u : Units) (e : Exchange) : Prop where
  flow : u.flow e.id ≠ 1 → (e.type = .fromEnvironment ∨ e.type = .toEnvironment) ∧ PlainObj e.toNumObj ∧
    e.conditional ≠ some true ∧ e.activityLink.getD "" = ""
  pv : ∀ p, e.pv = some p → PlainObj p.toNumObj
  price : ∀ p ∈ e.properties, p.name = "price" → PlainObj p.toNumObj

/-- A recyclable byproduct. -/
def RecyclableOutput (e : Exchange) : Prop := e.type = .byproduct ∧ e.cls = some .recyclable

/-- No suppliers: these lists are used while linking only and not exported. -/
def withoutSuppliers : Item → Item
  | .ds d => .ds { d with suppliers := none }
  | .str s => .str s

end Spec
end Ocelot
