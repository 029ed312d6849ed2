import Verif.Model.Brightway
import Verif.Props.Consequential

/-! # Property C66: the export to Brightway2 -/

namespace Ocelot

namespace Spec

/-- What Brightway2 makes of the exported exchanges: output of the product with this code minus input of it, which is the entry of the technosphere matrix. -/
def matrixEntry (a : BwActivity) (db code : String) : ℚ :=
  ((a.exchanges.filter fun e => e.type = .production ∧ e.input = some (db, code)).map (·.amount)).sum -
    ((a.exchanges.filter fun e => e.type = .technosphere ∧ e.input = some (db, code)).map (·.amount)).sum

/-- The same from the dataset: outputs count positive and inputs negative. -/
def linkedNet (ds : Dataset) (code : String) : ℚ :=
  ((ds.exchanges.filter fun e => (e.type = .referenceProduct ∨ e.type = .byproduct) ∧ e.code = some code).map (·.amount)).sum -
    ((ds.exchanges.filter fun e => e.type = .fromTechnosphere ∧ e.code = some code).map (·.amount)).sum

/-- The exported total of an environmental flow. -/
def biosphereEntry (a : BwActivity) (name unit comp sub : String) : ℚ :=
  ((a.exchanges.filter fun e => e.type = .biosphere ∧ e.flow = some (name, unit, comp, sub)).map (·.amount)).sum

/-- The total of an environmental flow in the dataset. -/
def environmentTotal (ds : Dataset) (name unit comp sub : String) : ℚ :=
  ((ds.exchanges.filter fun e => (e.type = .fromEnvironment ∨ e.type = .toEnvironment) ∧ e.name = name ∧ e.unit = unit ∧ e.compartment = some (comp, sub)).map (·.amount)).sum

/-- An unlinked exchange of refinery gas. -/
def UnlinkedRefineryGas (e : Exchange) : Prop := e.name = "refinery gas" ∧ (e.code = none ∨ e.code = some "")

instance (e : Exchange) : Decidable (UnlinkedRefineryGas e) := by unfold UnlinkedRefineryGas; infer_instance

/-- An exchange that has what its type needs. -/
def Exportable (e : Exchange) : Prop :=
  ((e.type = .referenceProduct ∨ e.type = .byproduct ∨ e.type = .fromTechnosphere) ∧ e.code.isSome) ∨ ((e.type = .fromEnvironment ∨ e.type = .toEnvironment) ∧ e.compartment.isSome)

end Spec

open Spec

theorem sum_filter_cons_zero (p : Exchange → Bool) {e : Exchange} (es : List Exchange) (h : e.amount = 0) : (((e :: es).filter p).map (·.amount)).sum = ((es.filter p).map (·.amount)).sum := by
  rw [List.filter_cons]
  split
  · rw [List.map_cons, List.sum_cons, h, zero_add]
  · rfl

theorem exported_iff (e : Exchange) : exported e = true ↔ e.amount ≠ 0 ∧ ¬ UnlinkedRefineryGas e := by
  unfold exported refineryGasOk UnlinkedRefineryGas
  rcases e.code with _ | c <;> simp <;> tauto

theorem translateExchange_ok_iff (db : String) (e : Exchange) : (∃ b, translateExchange db e = .ok b) ↔ Exportable e := by
  unfold translateExchange Exportable
  rcases e.type with _ | _ | _ | _ | _ | _ | _ <;> rcases e.code with _ | c <;> rcases e.compartment with _ | p <;> simp [getKey, bind, Except.bind, pure, Except.pure]

/-- **C66**: exactly when the export of a dataset succeeds: it has the fields, one reference product, and every exchange with an amount, unlinked refinery gas aside, is linked or has a
compartment. Exchanges with amount zero, such as dropped products, never matter. -/
theorem C66_succeeds_iff (db : String) (ds : Dataset) :
    (∃ a, translateActivity db ds = .ok a) ↔ ds.code.isSome ∧ ds.endDate.isSome ∧ ds.startDate.isSome ∧ ds.technologyLevel.isSome ∧
      (ds.exchanges.filter fun e => e.type = .referenceProduct).length = 1 ∧ ∀ e ∈ ds.exchanges, e.amount ≠ 0 → ¬ UnlinkedRefineryGas e → Exportable e := by
  have hrp : (∃ rp, getSingleReferenceProduct ds = .ok rp) ↔ (ds.exchanges.filter fun e => e.type = .referenceProduct).length = 1 := by
    have hfe : (ds.exchanges.filter fun e => e.type = .referenceProduct) = referenceProducts ds := by
      unfold referenceProducts
      apply List.filter_congr; intro e _; rw [Bool.eq_iff_iff]; simp
    rw [hfe]
    unfold getSingleReferenceProduct
    rcases referenceProducts ds with _ | ⟨a, _ | ⟨b, l⟩⟩ <;> simp
  have hex : (∃ l, mapE (translateExchange db) (ds.exchanges.filter exported) = .ok l) ↔ ∀ e ∈ ds.exchanges, e.amount ≠ 0 → ¬ UnlinkedRefineryGas e → Exportable e := by
    constructor
    · rintro ⟨l, hl⟩ e he h0 hr
      obtain ⟨b, _, hb⟩ := forall₂_mem_left ((mapE_ok_iff).mp hl) (List.mem_filter.mpr ⟨he, (exported_iff e).mpr ⟨h0, hr⟩⟩)
      exact (translateExchange_ok_iff db e).mp ⟨b, hb⟩
    · intro h
      refine mapE_ok_of_forall ?_
      intro e he
      obtain ⟨he, hx⟩ := List.mem_filter.mp he
      obtain ⟨h0, hr⟩ := (exported_iff e).mp hx
      exact (translateExchange_ok_iff db e).mpr (h e he h0 hr)
  unfold translateActivity
  rw [← hrp, ← hex]
  rcases ds.code with _ | c <;> rcases ds.endDate with _ | c2 <;> rcases ds.startDate with _ | c3 <;> rcases ds.technologyLevel with _ | c4 <;>
    rcases getSingleReferenceProduct ds with er | rp <;> rcases mapE (translateExchange db) (ds.exchanges.filter exported) with er2 | l <;> simp [getKey, bind, Except.bind, pure, Except.pure]

theorem translateActivity_ok {db : String} {ds : Dataset} {a : BwActivity} (h : translateActivity db ds = .ok a) :
    ∃ rp, getSingleReferenceProduct ds = .ok rp ∧ List.Forall₂ (fun e b => translateExchange db e = .ok b) (ds.exchanges.filter exported) a.exchanges ∧ ds.code = some a.code ∧
      a.name = ds.name ∧ a.location = ds.location ∧ a.database = db ∧ a.unit = rp.unit ∧ a.referenceProduct = rp.name ∧ a.productionAmount = rp.amount ∧
      ds.startDate = some a.startDate ∧ ds.endDate = some a.endDate ∧ ds.technologyLevel = some a.technologyLevel ∧ a.filepath = ds.filepath ∧ a.extra = ds.extra := by
  unfold translateActivity at h
  obtain ⟨code, h1, h⟩ := bind_eq_ok.mp h
  obtain ⟨ed, h2, h⟩ := bind_eq_ok.mp h
  obtain ⟨sd, h3, h⟩ := bind_eq_ok.mp h
  obtain ⟨lv, h4, h⟩ := bind_eq_ok.mp h
  obtain ⟨rp, h5, h⟩ := bind_eq_ok.mp h
  obtain ⟨ex, h6, h⟩ := bind_eq_ok.mp h
  cases h
  exact ⟨rp, h5, (mapE_ok_iff).mp h6, getKey_eq_ok.mp h1, rfl, rfl, rfl, rfl, rfl, rfl, getKey_eq_ok.mp h3, getKey_eq_ok.mp h2, getKey_eq_ok.mp h4, rfl, rfl⟩

/-- **C66**, the exchanges: they are exported in their order, one for each exchange that has an amount and is not unlinked refinery gas; production and inputs with their amount, byproducts
as inputs with the opposite amount, environmental flows with their amount. -/
theorem C66_exchanges {db : String} {ds : Dataset} {a : BwActivity} (h : translateActivity db ds = .ok a) :
    List.Forall₂ (fun (e : Exchange) (b : BwExchange) =>
      (e.type = .referenceProduct ∧ (∃ c, e.code = some c ∧ b = ⟨.production, e.amount, some (db, c), none⟩)) ∨
      (e.type = .byproduct ∧ (∃ c, e.code = some c ∧ b = ⟨.technosphere, -e.amount, some (db, c), none⟩)) ∨
      (e.type = .fromTechnosphere ∧ (∃ c, e.code = some c ∧ b = ⟨.technosphere, e.amount, some (db, c), none⟩)) ∨
      ((e.type = .fromEnvironment ∨ e.type = .toEnvironment) ∧ (∃ c s, e.compartment = some (c, s) ∧ b = ⟨.biosphere, e.amount, none, some (e.name, e.unit, c, s)⟩)))
      (ds.exchanges.filter fun e => e.amount ≠ 0 ∧ ¬ UnlinkedRefineryGas e) a.exchanges := by
  obtain ⟨rp, _, hex, _⟩ := translateActivity_ok h
  have hf : (ds.exchanges.filter fun e => e.amount ≠ 0 ∧ ¬ UnlinkedRefineryGas e) = ds.exchanges.filter exported := by
    apply List.filter_congr; intro e _; rw [Bool.eq_iff_iff, exported_iff]; simp
  rw [hf]
  refine hex.imp ?_
  intro e b hb
  unfold translateExchange at hb
  rcases ht : e.type with _ | _ | _ | _ | _ | _ | _ <;> rw [ht] at hb <;> simp only at hb
  · obtain ⟨c, h1, h2⟩ := bind_eq_ok.mp hb
    cases h2
    exact .inl ⟨rfl, c, getKey_eq_ok.mp h1, rfl⟩
  · obtain ⟨c, h1, h2⟩ := bind_eq_ok.mp hb
    cases h2
    exact .inr (.inl ⟨rfl, c, getKey_eq_ok.mp h1, by rw [neg_one_mul]⟩)
  · obtain ⟨c, h1, h2⟩ := bind_eq_ok.mp hb
    cases h2
    exact .inr (.inr (.inl ⟨rfl, c, getKey_eq_ok.mp h1, rfl⟩))
  · obtain ⟨c, h1, h2⟩ := bind_eq_ok.mp hb
    cases h2
    exact .inr (.inr (.inr ⟨.inl rfl, c.1, c.2, getKey_eq_ok.mp h1, rfl⟩))
  · obtain ⟨c, h1, h2⟩ := bind_eq_ok.mp hb
    cases h2
    exact .inr (.inr (.inr ⟨.inr rfl, c.1, c.2, getKey_eq_ok.mp h1, rfl⟩))
  · cases hb
  · cases hb

/-- **C66**, the matrix: for every product code, output minus input is the same in the exported activity and in the dataset. -/
theorem C66_matrix {db : String} {ds : Dataset} {a : BwActivity} (h : translateActivity db ds = .ok a) (code : String) (hcode : code ≠ "") : matrixEntry a db code = linkedNet ds code := by
  have hex := C66_exchanges h
  unfold matrixEntry linkedNet
  generalize a.exchanges = bs at hex
  clear h
  induction hl : ds.exchanges generalizing bs ds with
  | nil =>
    rw [hl] at hex
    cases hex
    rfl
  | cons e es ih =>
    rw [hl, List.filter_cons] at hex
    have ih' := fun bs hb => ih (ds := { ds with exchanges := es }) bs hb rfl
    split at hex
    · next hx =>
      cases hex with
      | @cons _ b _ bs hb hbs =>
        have := ih' bs hbs
        rcases hb with ⟨ht, c, hc, rfl⟩ | ⟨ht, c, hc, rfl⟩ | ⟨ht, c, hc, rfl⟩ | ⟨ht, c, s, hc, rfl⟩
        · by_cases hcc : c = code
          · subst hcc
            simp [List.filter_cons, ht, hc] at this ⊢
            linarith
          · simp [List.filter_cons, ht, hc, hcc] at this ⊢
            linarith
        · by_cases hcc : c = code
          · subst hcc
            simp [List.filter_cons, ht, hc] at this ⊢
            linarith
          · simp [List.filter_cons, ht, hc, hcc] at this ⊢
            linarith
        · by_cases hcc : c = code
          · subst hcc
            simp [List.filter_cons, ht, hc] at this ⊢
            linarith
          · simp [List.filter_cons, ht, hc, hcc] at this ⊢
            linarith
        · rcases ht with ht | ht <;> simp [List.filter_cons, ht] at this ⊢ <;> linarith
    · next hx =>
      rw [ih' bs hex]
      simp only [decide_eq_true_eq, not_and_or, not_not] at hx
      rcases hx with hx | ⟨_, hx⟩
      · rw [sum_filter_cons_zero _ _ hx, sum_filter_cons_zero _ _ hx]
      · have : e.code ≠ some code := by
          rcases hx with hx | hx <;> rw [hx]
          · simp
          · simpa using hcode.symm
        simp [List.filter_cons, this]

/-- **C66**, the inventory: every environmental flow keeps its total (flows called refinery gas aside, which are dropped if they carry no code). -/
theorem C66_biosphere {db : String} {ds : Dataset} {a : BwActivity} (h : translateActivity db ds = .ok a) (name unit comp sub : String) (hname : name ≠ "refinery gas") :
    biosphereEntry a name unit comp sub = environmentTotal ds name unit comp sub := by
  have hex := C66_exchanges h
  unfold biosphereEntry environmentTotal
  generalize a.exchanges = bs at hex
  clear h
  induction hl : ds.exchanges generalizing bs ds with
  | nil =>
    rw [hl] at hex
    cases hex
    rfl
  | cons e es ih =>
    rw [hl, List.filter_cons] at hex
    have ih' := fun bs hb => ih (ds := { ds with exchanges := es }) bs hb rfl
    split at hex
    · next hx =>
      cases hex with
      | @cons _ b _ bs hb hbs =>
        have := ih' bs hbs
        rcases hb with ⟨ht, c, hc, rfl⟩ | ⟨ht, c, hc, rfl⟩ | ⟨ht, c, hc, rfl⟩ | ⟨ht, c, s, hc, rfl⟩
        · simp [List.filter_cons, ht] at this ⊢; exact this
        · simp [List.filter_cons, ht] at this ⊢; exact this
        · simp [List.filter_cons, ht] at this ⊢; exact this
        · by_cases hk : e.name = name ∧ e.unit = unit ∧ c = comp ∧ s = sub
          · obtain ⟨h1, h2, h3, h4⟩ := hk
            subst h3 h4
            simp [List.filter_cons, ht, hc, h1, h2] at this ⊢
            exact this
          · have hk' : ¬ (e.name = name ∧ e.unit = unit ∧ e.compartment = some (comp, sub)) := by
              rw [hc]; simpa using hk
            rw [List.filter_cons, List.filter_cons, if_neg (by simpa using hk), if_neg (by
              simp only [decide_eq_true_eq]
              exact fun hh => hk' hh.2)]
            exact this
    · next hx =>
      rw [ih' bs hex]
      simp only [decide_eq_true_eq, not_and_or, not_not] at hx
      rcases hx with hx | ⟨hx, _⟩
      · rw [sum_filter_cons_zero _ _ hx]
      · rw [List.filter_cons, if_neg]
        simp only [decide_eq_true_eq]
        rintro ⟨_, hn, _⟩
        exact hname (hn.symm.trans hx)

/-- **C66**, the activity: fields are copied, and the unit, product and production amount are those of the one reference product. -/
theorem C66_fields {db : String} {ds : Dataset} {a : BwActivity} (h : translateActivity db ds = .ok a) :
    ds.code = some a.code ∧ a.name = ds.name ∧ a.location = ds.location ∧ a.filepath = ds.filepath ∧ a.database = db ∧ ds.startDate = some a.startDate ∧ ds.endDate = some a.endDate ∧
      ds.technologyLevel = some a.technologyLevel ∧ a.extra = ds.extra ∧
      ∃ rp, (ds.exchanges.filter fun e => e.type = .referenceProduct) = [rp] ∧ a.unit = rp.unit ∧ a.referenceProduct = rp.name ∧ a.productionAmount = rp.amount := by
  obtain ⟨rp, h1, _, h2, h3, h4, h5, h6, h7, h8, h9, h10, h11, h12, h13⟩ := translateActivity_ok h
  refine ⟨h2, h3, h4, h12, h5, h9, h10, h11, h13, rp, ?_, h6, h7, h8⟩
  have hfe : (ds.exchanges.filter fun e => e.type = .referenceProduct) = referenceProducts ds := by
    unfold referenceProducts
    apply List.filter_congr; intro e _; rw [Bool.eq_iff_iff]; simp
  rw [hfe]
  unfold getSingleReferenceProduct at h1
  split at h1
  · cases h1
  · cases h1; assumption
  · cases h1

/-- **C66**, the database: activities are exported one by one in their order, and one that cannot be exported stops the export. -/
theorem C66_database (db : String) (data : List Dataset) (as : List BwActivity) :
    convertToBrightway db data = .ok as ↔ List.Forall₂ (fun ds a => translateActivity db ds = .ok a) data as := mapE_ok_iff

def Spec.exampleExport : Dataset :=
  { name := "a", code := some "c1", startDate := some "s", endDate := some "e", technologyLevel := some "current", exchanges := [{ name := "x", unit := "kg", type := .referenceProduct, amount := 1, code := some "c1" }, { name := "y", type := .byproduct, amount := 2, code := some "c2" }, { name := "y", type := .fromTechnosphere, amount := 5, code := some "c2" }, { name := "co2", unit := "kg", type := .toEnvironment, amount := 3, compartment := some ("air", "urban") }, { name := "z", type := .droppedProduct, amount := 0 }, { name := "refinery gas", type := .fromTechnosphere, amount := 4 }] }

example : ∃ a, translateActivity "db" exampleExport = .ok a ∧ a.exchanges.length = 4 ∧ matrixEntry a "db" "c2" = -3 ∧ linkedNet exampleExport "c2" = -3 ∧ biosphereEntry a "co2" "kg" "air" "urban" = 3 := by
  refine ⟨_, rfl, ?_⟩
  decide +kernel

end Ocelot
