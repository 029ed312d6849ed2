import Verif.Proofs.SupplierVolumes

/-!
# C39: suppliers at named places

Without the condition of `C39_exactly_inside_partial` on `RoW` datasets.
-/

namespace Ocelot
open Spec

/-- C39: a market without suppliers gets an entry for every supplying dataset of its product whose place is a named one inside the market, and every
entry describes a supplying dataset of its product. Only a `RoW` dataset can be missing (`C39_duplicate_row_dropped`). -/
theorem C39_named_places (T : Topology) (hT : WellFormed T) (hne : NoEmptyPlaces T) (σ : Dataset → String → List String → List String) (hσ : IterationOrder σ)
    (from_ to_ : DsType) (data out : List Dataset) (h : addSuppliersToMarkets T σ from_ to_ data = .ok out) (m : Dataset) (hm : m ∈ data) (ht : m.type = to_)
    (hs : m.suppliers.getD [] = []) (r : String) (hr : m.refProduct = some r) :
    ∃ m' ∈ out, ∃ entries, m' = { m with suppliers := some entries } ∧
      (∀ e ∈ entries, ∃ d ∈ producers from_ r data, Describes d e) ∧
      ∀ d ∈ producers from_ r data, ∀ fm fs, HasFaces T m.location fm → HasFaces T d.location fs → fs ⊆ fm → ∃ e ∈ entries, Describes d e :=
  addSuppliers_complete hT hne hσ h hm ht hs hr

/-- The conditions, with two `RoW` suppliers of the same name. -/
example : (addSuppliersToMarkets exampleSupplyTopology (fun _ _ l => l) .transforming .market
      [exampleSupplier "a" "RoW" 1, exampleSupplier "a" "RoW" 2, exampleSupplier "a" "UCTE" 3, exampleMarketAt "GLO"]).map
      (fun l => l.map fun d => (d.suppliers.getD []).map fun e => (e.activity, e.location, vol e)) =
    .ok [[], [], [], [(some "a", some "UCTE", 3), (some "a", some "RoW", 2)]] := by decide +kernel

end Ocelot
