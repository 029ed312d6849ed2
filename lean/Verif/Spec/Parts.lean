import Verif.Model.Basic

/-!
# Parts of a database that have nothing to do with each other

A part of the database is given by the names of its activities and products and by the ids of its datasets. Nothing here
refers to the transformation functions.
-/

namespace Ocelot.Spec

/-- Which names (of activities and products) and which ids belong to the part. -/
structure Cut where
  name : String → Bool
  id : String → Bool

/-- The names that a run makes out of others stay on their side: the suffix of recycled content is immaterial, and so is the product
that is added to the name of an activity that is split. The product "refinery gas" is not in the part. -/
structure Cut.Proper (c : Cut) : Prop where
  recycled : ∀ a b, c.name (a ++ ", Recycled Content cut-off" ++ b) = c.name (a ++ b)
  split : ∀ a b, c.name a = c.name b → c.name (a ++ ", from " ++ b) = c.name a
  gas : c.name "refinery gas" = false

/-- Flows from and to nature; they have no supplier. -/
def IsElementaryFlow (e : Exchange) : Prop := e.type = .fromEnvironment ∨ e.type = .toEnvironment

/-- The dataset is on the given side with everything it refers to: its products and inputs, the activities it is linked to, and its
reference product if it has one. -/
structure Cut.On (c : Cut) (side : Bool) (d : Dataset) : Prop where
  name : c.name d.name = side
  id : c.id d.id = side
  flows : ∀ e ∈ d.exchanges, (IsElementaryFlow e ∧ e.conditional ≠ some true) ∨ c.name e.name = side
  links : ∀ e ∈ d.exchanges, ∀ l, e.activityLink = some l → l ≠ "" → c.id l = side
  product : ∀ r, d.refProduct = some r → c.name r = side

/-- Every dataset is wholly inside or wholly outside of the part. -/
def Cut.Divides (c : Cut) (data : List Dataset) : Prop := ∀ d ∈ data, c.On (c.name d.name) d

/-- The datasets of the part. -/
def Cut.part (c : Cut) (data : List Dataset) : List Dataset := data.filter fun d => c.name d.name

end Ocelot.Spec
