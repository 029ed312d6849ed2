import Verif.Model.Combined

/-! Giving other identifiers to the activities. -/

namespace Ocelot
namespace Spec

/-- Other names for what identifies a dataset: its identifier (to which parents and activity links refer), the file it was read from, and the
metadata that are copied along. -/
structure Renaming where
  id : String → String
  file : String → String
  extra : List (String × String) → List (String × String)

/-- An exchange whose activity link refers to the renamed activity. Identifiers of exchanges do not change. -/
def Renaming.exc (ρ : Renaming) (e : Exchange) : Exchange := { e with activityLink := e.activityLink.map ρ.id }

/-- A renamed dataset. -/
def Renaming.ds (ρ : Renaming) (d : Dataset) : Dataset :=
  { d with
    id := ρ.id d.id
    parent := d.parent.map ρ.id
    filepath := ρ.file d.filepath
    extra := ρ.extra d.extra
    exchanges := d.exchanges.map ρ.exc
    suppliers := d.suppliers.map fun l => l.map ρ.exc }

/-- An element of a list of results, renamed. -/
def Renaming.item (ρ : Renaming) : Item → Item
  | .ds d => .ds (ρ.ds d)
  | .str s => .str s

/-- Different things get different names. The empty identifier stands for no link; the other fixed one is the only identifier that is
written in the source (activity_links.py:229). -/
structure Renaming.Proper (ρ : Renaming) : Prop where
  id : Function.Injective ρ.id
  file : Function.Injective ρ.file
  extra : Function.Injective ρ.extra
  empty : ρ.id "" = ""
  removed : ρ.id "25edb027-d7c0-4756-a051-cab82e4f6248" = "25edb027-d7c0-4756-a051-cab82e4f6248"

end Spec
end Ocelot
