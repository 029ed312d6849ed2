import Verif.Model.Consequential
import Verif.Proofs.ActivityLinks
import Verif.Props.RestOfWorld

/-! # Properties C68, C69, C70, C80, C81: the consequential system model -/

namespace Ocelot

namespace Spec

/-- Technology levels, best first. -/
def technologyOrder : List String := ["new", "modern", "current", "old", "outdated"]

/-- Level `a` is better than level `b`. -/
def BetterLevel (a b : String) : Prop := ∃ i j : ℕ, i < j ∧ technologyOrder[i]? = some a ∧ technologyOrder[j]? = some b

/-- A market or market group with suppliers. -/
def SuppliedMarket (ds : Dataset) (suppliers : List Exchange) : Prop :=
  (ds.type = .market ∨ ds.type = .marketGroup) ∧ ds.suppliers = some suppliers ∧ suppliers ≠ []

/-- What an exchange adds to the output of its flow: products and byproducts count positive, inputs negative. -/
def signed (e : Exchange) : ℚ :=
  match e.type with
  | .referenceProduct => e.amount
  | .byproduct => e.amount
  | .fromTechnosphere => -e.amount
  | _ => 0

/-- Net output of a flow. -/
def flowBalance (ds : Dataset) (flow : String) : ℚ := ((ds.exchanges.filter fun e => e.name = flow).map signed).sum

/-- Number of reference products. -/
def productCount (ds : Dataset) : ℕ := (ds.exchanges.filter fun e => e.type = .referenceProduct).length

/-- Constrained exchanges are byproducts (this is how they are extracted, C67). -/
def ConstrainedAreByproducts (data : List Dataset) : Prop :=
  ∀ ds ∈ data, ∀ e ∈ ds.exchanges, e.conditional = some true → e.type = .byproduct

/-- The exchange as an input of the same net output. -/
def asInput (e : Exchange) : Exchange :=
  { e with type := .fromTechnosphere, amount := -e.amount, formula := e.formula.map fun f => "-1 * (" ++ f ++ ")" }

/-- The exchange as an (allocatable) reference product of the same net output. -/
def asProduct (e : Exchange) : Exchange :=
  { e with type := .referenceProduct, cls := some .allocatable, amount := -e.amount, formula := e.formula.map fun f => "-1 * (" ++ f ++ ")" }

end Spec

open Spec

/-! ## C68 -/

theorem suppliersAt_eq {suppliers found : List Exchange} {level : String} (h : suppliersAt suppliers level = .ok found) :
    found = suppliers.filter (fun s => s.technologyLevel == some level) ∧ ∀ s ∈ suppliers, s.technologyLevel.isSome := by
  have hall := filterE_ok_all h
  have hsome : ∀ s ∈ suppliers, s.technologyLevel.isSome := by
    intro s hs
    obtain ⟨b, hb⟩ := hall s hs
    obtain ⟨t, ht, _⟩ := bind_eq_ok.mp hb
    rw [getKey_eq_ok] at ht
    rw [ht]; rfl
  refine ⟨?_, hsome⟩
  unfold suppliersAt at h
  rw [filterE_eq_filter (q := fun s => s.technologyLevel == some level)] at h
  · exact (Except.ok.inj h).symm
  · intro s hs
    obtain ⟨t, ht⟩ := Option.isSome_iff_exists.mp (hsome s hs)
    simp only [ht, getKey_some, ebind_ok, epure]
    rfl

theorem suppliersAt_ok {suppliers : List Exchange} (level : String) (h : ∀ s ∈ suppliers, s.technologyLevel.isSome) :
    suppliersAt suppliers level = .ok (suppliers.filter fun s => s.technologyLevel == some level) := by
  unfold suppliersAt
  apply filterE_eq_filter
  intro s hs
  obtain ⟨t, ht⟩ := Option.isSome_iff_exists.mp (h s hs)
  simp only [ht, getKey_some, ebind_ok, epure]
  rfl

theorem bestSuppliers_ok {suppliers best : List Exchange} : ∀ {levels : List String}, bestSuppliers suppliers levels = .ok best →
    ∃ pre level post, levels = pre ++ level :: post ∧ best = suppliers.filter (fun s => s.technologyLevel == some level) ∧ best ≠ [] ∧
      (∀ s ∈ suppliers, s.technologyLevel.isSome) ∧ ∀ l ∈ pre, ∀ s ∈ suppliers, s.technologyLevel ≠ some l
  | [], h => by simp [bestSuppliers] at h
  | level :: rest, h => by
    rw [bestSuppliers] at h
    obtain ⟨found, h1, h2⟩ := bind_eq_ok.mp h
    obtain ⟨hf, hsome⟩ := suppliersAt_eq h1
    by_cases hn : found = []
    · rw [if_pos hn] at h2
      obtain ⟨pre, l, post, rfl, hb, hne, hs, hpre⟩ := bestSuppliers_ok h2
      refine ⟨level :: pre, l, post, rfl, hb, hne, hs, ?_⟩
      intro x hx s hsm
      rcases List.mem_cons.mp hx with rfl | hx
      · intro he
        rw [hn] at hf
        have : s ∈ suppliers.filter fun s => s.technologyLevel == some x := List.mem_filter.mpr ⟨hsm, by rw [he]; simp⟩
        rw [← hf] at this
        exact absurd this (by simp)
      · exact hpre x hx s hsm
    · rw [if_neg hn] at h2
      cases h2
      exact ⟨[], level, rest, rfl, hf, hn, hsome, by simp⟩

theorem bestSuppliers_error {suppliers : List Exchange} (hsome : ∀ s ∈ suppliers, s.technologyLevel.isSome) :
    ∀ {levels : List String}, (∃ s ∈ suppliers, ∃ l ∈ levels, s.technologyLevel = some l) → ∃ best, bestSuppliers suppliers levels = .ok best
  | [], h => by obtain ⟨_, _, _, hl, _⟩ := h; simp at hl
  | level :: rest, ⟨s, hs, l, hl, he⟩ => by
    rw [bestSuppliers, suppliersAt_ok level hsome]
    simp only [ebind_ok]
    by_cases hn : suppliers.filter (fun s => s.technologyLevel == some level) = []
    · rw [if_pos hn]
      apply bestSuppliers_error hsome
      refine ⟨s, hs, l, ?_, he⟩
      rcases List.mem_cons.mp hl with rfl | hl
      · have : s ∈ suppliers.filter fun s => s.technologyLevel == some l := List.mem_filter.mpr ⟨hs, by rw [he]; simp⟩
        rw [hn] at this
        exact absurd this (by simp)
      · exact hl
    · rw [if_neg hn]
      exact ⟨_, rfl⟩

theorem levels_same : levelHierarchy = technologyOrder := rfl

/-- **C68**: a market with suppliers keeps exactly its suppliers of one technology level, at least one, in their order; none of its suppliers had a better level; everything
else stays as it is. -/
theorem C68_best {data data' : List Dataset} (h : pruneByTechnologyLevel data = .ok data') :
    List.Forall₂ (fun ds ds' => ∀ suppliers,
      (SuppliedMarket ds suppliers → ∃ level ∈ technologyOrder, ds' = { ds with suppliers := some (suppliers.filter fun s => s.technologyLevel = some level) } ∧
        (∃ s ∈ suppliers, s.technologyLevel = some level) ∧ ∀ s ∈ suppliers, ∀ l, s.technologyLevel = some l → ¬ BetterLevel l level) ∧
      ((¬ ∃ suppliers, SuppliedMarket ds suppliers) → ds' = ds)) data data' := by
  refine (mapE_ok_iff.mp h).imp ?_
  intro ds ds' hd suppliers
  unfold pruneSuppliers at hd
  constructor
  · rintro ⟨ht, hs, hne⟩
    rw [if_pos ⟨ht, by rw [hs]; exact hne⟩, hs] at hd
    obtain ⟨best, hb, he⟩ := bind_eq_ok.mp hd
    cases he
    obtain ⟨pre, level, post, hsplit, rfl, hbest, _, hpre⟩ := bestSuppliers_ok hb
    simp only [Option.getD_some] at *
    rw [levels_same] at hsplit
    refine ⟨level, by rw [hsplit]; simp, ?_, ?_, ?_⟩
    · congr 2
      apply List.filter_congr
      intro s _
      rw [Bool.eq_iff_iff]
      simp
    · obtain ⟨s, hsm⟩ := List.exists_mem_of_ne_nil _ hbest
      rw [List.mem_filter] at hsm
      exact ⟨s, hsm.1, by simpa using hsm.2⟩
    · rintro s hsm l hl ⟨i, j, hij, hi, hj⟩
      have hnd : technologyOrder.Nodup := by decide
      have hjeq : j = pre.length := by
        have h2 : technologyOrder[pre.length]? = some level := by rw [hsplit]; simp
        have hjl := (List.getElem?_eq_some_iff.mp hj).1
        have hpl := (List.getElem?_eq_some_iff.mp h2).1
        have : technologyOrder[j] = technologyOrder[pre.length] := by
          rw [(List.getElem?_eq_some_iff.mp hj).2, (List.getElem?_eq_some_iff.mp h2).2]
        exact (List.Nodup.getElem_inj_iff hnd).mp this
      subst hjeq
      rw [hsplit, List.getElem?_append_left hij] at hi
      exact hpre l (List.mem_of_getElem? hi) s hsm hl
  · intro hno
    rw [if_neg] at hd
    · cases hd; rfl
    · rintro ⟨ht, hne⟩
      rcases hsup : ds.suppliers with _ | l
      · rw [hsup] at hne; exact hne rfl
      · rw [hsup] at hne
        exact hno ⟨l, ht, hsup, hne⟩

/-- **C68**: it fails exactly when some market has suppliers of which one has no technology level at all, or none has a level in the order. -/
theorem C68_failure (data : List Dataset) :
    (∃ e, pruneByTechnologyLevel data = .error e) ↔ ∃ ds ∈ data, ∃ suppliers, SuppliedMarket ds suppliers ∧
      ((∃ s ∈ suppliers, s.technologyLevel = none) ∨ ∀ s ∈ suppliers, ∀ l ∈ technologyOrder, s.technologyLevel ≠ some l) := by
  constructor
  · rintro ⟨e, h⟩
    obtain ⟨ds, hds, he⟩ := mapE_error h
    refine ⟨ds, hds, ?_⟩
    unfold pruneSuppliers at he
    split at he
    · next hc =>
      rcases hsup : ds.suppliers with _ | l
      · rw [hsup] at hc; exact absurd rfl hc.2
      · rw [hsup] at hc he
        refine ⟨l, ⟨hc.1, hsup, hc.2⟩, ?_⟩
        by_contra hcon
        push Not at hcon
        obtain ⟨h1, s, hs, lv, hlv, heq⟩ := hcon
        obtain ⟨best, hb⟩ := bestSuppliers_error (suppliers := l) (fun s hs => Option.isSome_iff_ne_none.mpr (h1 s hs)) ⟨s, hs, lv, hlv, heq⟩
        rw [← levels_same] at hb
        simp only [Option.getD_some] at he
        rw [hb] at he
        cases he
    · cases he
  · rintro ⟨ds, hds, suppliers, hm, hbad⟩
    rcases hr : pruneByTechnologyLevel data with e | data'
    · exact ⟨e, rfl⟩
    · exfalso
      obtain ⟨ds', _, hd⟩ := forall₂_mem_left (mapE_ok_iff.mp hr) hds
      unfold pruneSuppliers at hd
      rw [if_pos ⟨hm.1, by rw [hm.2.1]; exact hm.2.2⟩, hm.2.1] at hd
      obtain ⟨best, hb, _⟩ := bind_eq_ok.mp hd
      obtain ⟨pre, level, post, hsplit, hbest, hne, hsome, _⟩ := bestSuppliers_ok hb
      simp only [Option.getD_some] at *
      rcases hbad with ⟨s, hs, hn⟩ | hbad
      · have := hsome s hs
        rw [hn] at this
        exact absurd this (by simp)
      · obtain ⟨s, hsm⟩ := List.exists_mem_of_ne_nil _ hne
        rw [hbest, List.mem_filter] at hsm
        refine hbad s hsm.1 level ?_ (by simpa using hsm.2)
        rw [← levels_same, hsplit]
        simp

def Spec.exampleSupplier (n l : String) : Exchange := { name := n, type := .referenceProduct, amount := 1, technologyLevel := some l }

example : pruneByTechnologyLevel [{ name := "m", type := .market, suppliers := some [exampleSupplier "a" "old", exampleSupplier "b" "current", exampleSupplier "c" "outdated", exampleSupplier "d" "current"] }, { name := "t" }] =
    .ok [{ name := "m", type := .market, suppliers := some [exampleSupplier "b" "current", exampleSupplier "d" "current"] }, { name := "t" }] := by decide +kernel

example : pruneByTechnologyLevel [{ name := "m", type := .market, suppliers := some [exampleSupplier "a" "undefined"] }] = .error .assertionError := by decide +kernel

/-! ## C70 -/

/-- **C70**: the check succeeds exactly when every byproduct is some dataset's reference product, and it changes nothing. -/
theorem C70_substitution (data : List Dataset) :
    ((∀ ds ∈ data, ∀ e ∈ ds.exchanges, e.type = .byproduct → ∃ ds' ∈ data, ∃ e' ∈ ds'.exchanges, e'.type = .referenceProduct ∧ e'.name = e.name) →
      ensureAlternativeProduction data = .ok data) ∧
    ((∃ ds ∈ data, ∃ e ∈ ds.exchanges, e.type = .byproduct ∧ ∀ ds' ∈ data, ∀ e' ∈ ds'.exchanges, e'.type = .referenceProduct → e'.name ≠ e.name) →
      ensureAlternativeProduction data = .error .missingAlternativeProducer) := by
  have hmem : ∀ t n, n ∈ namesOfType t data ↔ ∃ ds ∈ data, ∃ e ∈ ds.exchanges, e.type = t ∧ e.name = n := by
    intro t n
    simp only [namesOfType, List.mem_flatMap, List.mem_map, List.mem_filter, beq_iff_eq]
    constructor
    · rintro ⟨ds, hds, e, ⟨he, ht⟩, hn⟩; exact ⟨ds, hds, e, he, ht, hn⟩
    · rintro ⟨ds, hds, e, he, ht, hn⟩; exact ⟨ds, hds, e, ⟨he, ht⟩, hn⟩
  constructor
  · intro h
    unfold ensureAlternativeProduction
    rw [if_pos]
    rw [List.all_eq_true]
    intro n hn
    obtain ⟨ds, hds, e, he, ht, rfl⟩ := (hmem _ _).mp hn
    rw [List.contains_iff_mem]
    exact (hmem _ _).mpr (h ds hds e he ht)
  · rintro ⟨ds, hds, e, he, ht, hno⟩
    unfold ensureAlternativeProduction
    rw [if_neg]
    rw [List.all_eq_true]
    intro hall
    have := hall e.name ((hmem _ _).mpr ⟨ds, hds, e, he, ht, rfl⟩)
    rw [List.contains_iff_mem] at this
    obtain ⟨ds', hds', e', he', ht', hn⟩ := (hmem _ _).mp this
    exact hno ds' hds' e' he' ht' hn

/-- **C70**, activity links, what the code does: every activity link of an exchange that is not constrained is deleted, and nothing else changes. (It raises a `KeyError`
if a constrained exchange has no link.) -/
theorem C70_links {data data' : List Dataset} (h : deleteLinksToConstrained data = .ok data') :
    (∀ ds ∈ data, ∀ e ∈ ds.exchanges, e.conditional = some true → e.activityLink.isSome) ∧
      data' = data.map fun ds => { ds with exchanges := ds.exchanges.map fun e => if e.conditional = some true ∨ e.activityLink = some "" then e else { e with activityLink := none } } := by
  obtain ⟨links, h1, h2⟩ := bind_eq_ok.mp h
  cases h2
  constructor
  · intro ds hds e he hc
    obtain ⟨l, _, hl⟩ := forall₂_mem_left (mapE_ok_iff.mp h1) (a := e) (List.mem_flatMap.mpr ⟨ds, hds, List.mem_filter.mpr ⟨he, by rw [hc]; rfl⟩⟩)
    rw [getKey_eq_ok] at hl
    rw [hl]; rfl
  · apply List.map_congr_left
    intro ds _
    congr 1
    apply List.map_congr_left
    intro e _
    unfold dropLink
    by_cases hc : e.conditional = some true
    · rw [if_neg (by simp [hc]), if_pos (.inl hc)]
    · rcases hl : e.activityLink with _ | l
      · rw [if_neg (by simp), if_neg (by simp [hc]), ← hl]
      · by_cases hl' : l = ""
        · subst hl'
          rw [if_neg (by simp), if_pos (.inr rfl)]
        · rw [if_pos ⟨hc, by simpa using hl'⟩, if_neg (by simp [hc, hl'])]

/-- **C70** is false for activity links: a link of an ordinary exchange is deleted whatever it points to, also when nothing in the data is constrained. -/
theorem C70_all_links_deleted {data data' : List Dataset} (h : deleteLinksToConstrained data = .ok data') {i j : ℕ} {ds : Dataset} {e : Exchange} (hd : data[i]? = some ds)
    (he : ds.exchanges[j]? = some e) (hc : e.conditional ≠ some true) {l : String} (hl : e.activityLink = some l) (hne : l ≠ "") :
    ∃ ds' e', data'[i]? = some ds' ∧ ds'.exchanges[j]? = some e' ∧ e'.activityLink = none := by
  obtain ⟨_, rfl⟩ := C70_links h
  refine ⟨_, { e with activityLink := none }, by rw [List.getElem?_map, hd]; rfl, ?_, rfl⟩
  simp only [List.getElem?_map, he, Option.map_some]
  rw [if_neg]
  rw [hl]
  simp [hc, hne]

/-- What is true: constrained exchanges keep their links, and after it no link to a constrained activity is left on other exchanges. -/
theorem C70_links_partial {data data' : List Dataset} (h : deleteLinksToConstrained data = .ok data') :
    ∀ ds' ∈ data', ∀ e' ∈ ds'.exchanges, e'.conditional ≠ some true → e'.activityLink = none ∨ e'.activityLink = some "" := by
  obtain ⟨_, rfl⟩ := C70_links h
  intro ds' hds' e' he' hc
  obtain ⟨ds, _, rfl⟩ := List.mem_map.mp hds'
  obtain ⟨e, _, rfl⟩ := List.mem_map.mp he'
  split
  · next hif =>
    rcases hif with hif | hif
    · rw [if_pos (.inl hif)] at hc
      exact absurd hif hc
    · exact .inr hif
  · exact .inl rfl

example : deleteLinksToConstrained [{ name := "a", exchanges := [{ name := "x", type := .fromTechnosphere, amount := 1, activityLink := some "unrelated" }] }] =
    .ok [{ name := "a", exchanges := [{ name := "x", type := .fromTechnosphere, amount := 1 }] }] := by decide +kernel

example : ensureAlternativeProduction [{ name := "a", exchanges := [{ name := "x", type := .byproduct, amount := 1 }] }] = .error .missingAlternativeProducer := by decide +kernel

/-! ## C69 -/

/-- An exchange in a list of datasets. -/
def Spec.exchangeAt (data : List Dataset) (i j : ℕ) : Option Exchange := data[i]?.bind fun ds => ds.exchanges[j]?

/-- The two datasets have the same exchanges (same ids, flows and units) with the same contributions to the balances, and everything but the exchanges is the same. -/
def Spec.SameBalances (ds ds' : Dataset) : Prop :=
  ds' = { ds with exchanges := ds'.exchanges } ∧ productCount ds' = productCount ds ∧
    List.Forall₂ (fun e e' : Exchange => e'.id = e.id ∧ e'.name = e.name ∧ e'.unit = e.unit ∧ signed e' = signed e) ds.exchanges ds'.exchanges

theorem Spec.SameBalances.refl (ds : Dataset) : SameBalances ds ds :=
  ⟨rfl, rfl, List.forall₂_same.mpr fun _ _ => ⟨rfl, rfl, rfl, rfl⟩⟩

theorem Spec.SameBalances.trans {a b c : Dataset} (h1 : SameBalances a b) (h2 : SameBalances b c) : SameBalances a c := by
  obtain ⟨x1, y1, z1⟩ := h1
  obtain ⟨x2, y2, z2⟩ := h2
  refine ⟨?_, y2.trans y1, forall₂_trans' z1 z2 (fun _ _ _ p q => ⟨q.1.trans p.1, q.2.1.trans p.2.1, q.2.2.1.trans p.2.2.1, q.2.2.2.trans p.2.2.2⟩)⟩
  rw [x2, x1]

theorem Spec.SameBalances.flowBalance {a b : Dataset} (h : SameBalances a b) (flow : String) : flowBalance b flow = flowBalance a flow := by
  obtain ⟨_, _, h⟩ := h
  unfold Spec.flowBalance
  generalize a.exchanges = l at h
  generalize b.exchanges = l' at h
  induction h with
  | nil => rfl
  | @cons e e' l l' he _ ih =>
    rw [List.filter_cons, List.filter_cons, he.2.1]
    by_cases hn : e.name = flow
    · simp only [hn, decide_true, if_true, List.map_cons, List.sum_cons, he.2.2.2, ih]
    · simp only [hn, decide_false, Bool.false_eq_true, if_false, ih]

theorem modifyLast_split {i : String} {f : Dataset → Except Err Dataset} : ∀ {st st' : List Dataset}, modifyLast i f st = .ok st' →
    ∃ l₁ d d' l₂, st = l₁ ++ d :: l₂ ∧ d.id = i ∧ f d = .ok d' ∧ st' = l₁ ++ d' :: l₂
  | [], st', h => by simp [modifyLast] at h
  | d :: l, st', h => by
    rw [modifyLast] at h
    split at h
    · obtain ⟨r, h1, h2⟩ := bind_eq_ok.mp h
      cases h2
      obtain ⟨l₁, x, x', l₂, rfl, hi, hf, rfl⟩ := modifyLast_split h1
      exact ⟨d :: l₁, x, x', l₂, rfl, hi, hf, rfl⟩
    · split at h
      · next hid =>
        obtain ⟨d', h1, h2⟩ := bind_eq_ok.mp h
        cases h2
        exact ⟨[], d, d', l, rfl, hid, h1, rfl⟩
      · cases h

/-- What swapping roles does to one exchange. -/
def swapOne (name : String) (e : Exchange) : Exchange :=
  let e1 := if e.type = .referenceProduct then toInput e else e
  if e1.name = name then toProduct e1 else e1

theorem toInput_name (e : Exchange) : (toInput e).name = e.name := rfl

theorem swapRoles_ok {name : String} {t t' : Dataset} (h : swapRoles name t = .ok t') :
    t' = { t with exchanges := t.exchanges.map (swapOne name) } ∧ productCount t = 1 ∧ (t.exchanges.filter fun e => e.name = name).length = 1 ∧
      ∀ e ∈ t.exchanges, e.name = name → e.type = .referenceProduct ∨ e.type = .fromTechnosphere := by
  unfold swapRoles at h
  obtain ⟨rp, h1, h2⟩ := bind_eq_ok.mp h
  have hcount : productCount t = 1 := by
    unfold getSingleReferenceProduct referenceProducts at h1
    unfold productCount
    have hfe : (t.exchanges.filter fun e => e.type == .referenceProduct) = t.exchanges.filter fun e => decide (e.type = .referenceProduct) := by
      apply List.filter_congr; intro e _; rw [Bool.eq_iff_iff]; simp
    rw [← hfe]
    split at h1
    · cases h1
    · next e he => rw [he]; rfl
    · cases h1
  simp only at h2
  split at h2
  · next e he =>
    split at h2
    · next hty =>
      cases h2
      have hnames : ∀ x : Exchange, (if x.type = .referenceProduct then toInput x else x).name = x.name := by
        intro x; split <;> rfl
      have hfilt : ((t.exchanges.filter fun x => x.name = name).map fun x => if x.type = .referenceProduct then toInput x else x) = [e] := by
        rw [← he, List.filter_map]
        congr 1
        apply List.filter_congr
        intro x _
        rw [Bool.eq_iff_iff]
        simp [hnames]
      refine ⟨?_, hcount, ?_, ?_⟩
      · simp only [List.map_map]
        rfl
      · have := congrArg List.length hfilt
        simpa using this
      · intro x hx hn
        have hmem : (if x.type = .referenceProduct then toInput x else x) ∈ [e] := by
          rw [← hfilt]
          exact List.mem_map_of_mem (f := fun x : Exchange => if x.type = .referenceProduct then toInput x else x) (List.mem_filter.mpr ⟨hx, by simpa using hn⟩)
        rw [List.mem_singleton] at hmem
        by_cases hr : x.type = .referenceProduct
        · exact .inl hr
        · rw [if_neg hr] at hmem
          exact .inr (hmem ▸ hty)
    · cases h2
  · cases h2

theorem signed_toInput {e : Exchange} (h : e.type = .referenceProduct ∨ e.type = .byproduct) : signed (toInput e) = signed e := by
  rcases h with h | h <;> simp [signed, toInput, flipSign, h]

theorem signed_toProduct {e : Exchange} (h : e.type = .fromTechnosphere) : signed (toProduct e) = signed e := by
  simp [signed, toProduct, flipSign, h]

theorem swapOne_same {name : String} {e : Exchange} (h : e.name = name → e.type = .referenceProduct ∨ e.type = .fromTechnosphere) :
    (swapOne name e).id = e.id ∧ (swapOne name e).name = e.name ∧ (swapOne name e).unit = e.unit ∧ signed (swapOne name e) = signed e ∧
      ((swapOne name e).type = .referenceProduct ↔ e.name = name) := by
  unfold swapOne
  by_cases hr : e.type = .referenceProduct
  · simp only [hr, if_true, toInput_name]
    by_cases hn : e.name = name
    · simp only [hn, if_true]
      refine ⟨rfl, hn, rfl, ?_, by simp [toProduct, flipSign]⟩
      rw [signed_toProduct (by rfl), signed_toInput (.inl hr)]
    · simp only [hn, if_false]
      refine ⟨rfl, rfl, rfl, signed_toInput (.inl hr), ?_⟩
      simp [toInput, flipSign]
  · simp only [hr, if_false]
    by_cases hn : e.name = name
    · have hf : e.type = .fromTechnosphere := (h hn).resolve_left hr
      simp only [hn, if_true]
      exact ⟨rfl, hn, rfl, signed_toProduct hf, by simp [toProduct, flipSign]⟩
    · simp only [hn, if_false]
      simp [hr]

theorem swapRoles_same {name : String} {t t' : Dataset} (h : swapRoles name t = .ok t') : SameBalances t t' := by
  obtain ⟨rfl, h1, h2, h3⟩ := swapRoles_ok h
  refine ⟨rfl, ?_, ?_⟩
  · rw [h1]
    unfold productCount
    rw [List.filter_map, List.length_map, ← h2]
    congr 1
    apply List.filter_congr
    intro e he
    have := (swapOne_same (h3 e he)).2.2.2.2
    rw [Bool.eq_iff_iff]
    simpa using this
  · rw [List.forall₂_map_right_iff, List.forall₂_same]
    intro e he
    obtain ⟨a, b, c, d, _⟩ := swapOne_same (h3 e he)
    exact ⟨a, b, c, d⟩

theorem forall₂_modify {α : Type} {R : α → α → Prop} (hrefl : ∀ a, R a a) (f : α → α) : ∀ (l : List α) (i : ℕ), (∀ a, l[i]? = some a → R a (f a)) → List.Forall₂ R l (l.modify i f)
  | [], i, _ => by cases i <;> exact .nil
  | a :: l, 0, h => by
    rw [List.modify_zero_cons]
    exact .cons (h a rfl) (List.forall₂_same.mpr fun x _ => hrefl x)
  | a :: l, i + 1, h => by
    rw [List.modify_succ_cons]
    exact .cons (hrefl a) (forall₂_modify hrefl f l i fun x hx => h x (by simpa using hx))

theorem modify_at_length {α : Type} (l r : List α) (a : α) (f : α → α) : (l ++ a :: r).modify l.length f = l ++ f a :: r := by
  induction l with
  | nil => rfl
  | cons b l ih => rw [List.cons_append, List.length_cons, List.modify_succ_cons, ih]; rfl

theorem filter_modify_length {α : Type} (p : α → Bool) (f : α → α) : ∀ (l : List α) (i : ℕ), (∀ a, l[i]? = some a → p (f a) = p a) → ((l.modify i f).filter p).length = (l.filter p).length
  | [], i, _ => by cases i <;> rfl
  | a :: l, 0, h => by
    rw [List.modify_zero_cons, List.filter_cons, List.filter_cons, h a rfl]
    split <;> rfl
  | a :: l, i + 1, h => by
    rw [List.modify_succ_cons, List.filter_cons, List.filter_cons]
    have := filter_modify_length p f l i fun x hx => h x (by simpa using hx)
    split
    · rw [List.length_cons, List.length_cons, this]
    · exact this

theorem modifyExchange_same {st : List Dataset} {i j : ℕ} {c : Exchange} (hc : exchangeAt st i j = some c) (ht : c.type = .byproduct) :
    List.Forall₂ SameBalances st (modifyExchange i j toInput st) := by
  apply forall₂_modify SameBalances.refl
  intro ds hds
  have hj : ds.exchanges[j]? = some c := by
    unfold exchangeAt at hc
    rw [hds] at hc
    exact hc
  refine ⟨rfl, ?_, ?_⟩
  · apply filter_modify_length
    intro e he
    rw [hj] at he
    cases he
    rw [Bool.eq_iff_iff]
    simp [toInput, flipSign, ht]
  · apply forall₂_modify (by intro a; exact ⟨rfl, rfl, rfl, rfl⟩)
    intro e he
    rw [hj] at he
    cases he
    exact ⟨rfl, rfl, rfl, signed_toInput (.inr ht)⟩

theorem exchangeAt_modify {st : List Dataset} {i j i' j' : ℕ} (f : Exchange → Exchange) (hne : (i, j) ≠ (i', j')) :
    exchangeAt (modifyExchange i j f st) i' j' = exchangeAt st i' j' := by
  unfold exchangeAt modifyExchange
  rw [List.getElem?_modify]
  by_cases hi : i = i'
  · subst hi
    have hj : j ≠ j' := fun h => hne (by rw [h])
    rcases st[i]? with _ | ds
    · rfl
    · simp only [if_true, Option.map_eq_map, Option.map_some, Option.bind_some]
      rw [List.getElem?_modify_ne _ _ hj]
  · simp only [hi, if_false, Option.map_eq_map, Option.map_id']

theorem mem_constrainedExchanges {data : List Dataset} {i j : ℕ} {e : Exchange} :
    (i, j, e) ∈ constrainedExchanges data ↔ exchangeAt data i j = some e ∧ e.conditional = some true := by
  unfold constrainedExchanges exchangeAt
  simp only [List.mem_flatMap, List.mem_filterMap, Prod.exists, List.mem_zipIdx_iff_getElem?]
  constructor
  · rintro ⟨ds, k, hds, x, l, hx, hc⟩
    split at hc
    · next hcond =>
      simp only [Option.some.injEq, Prod.mk.injEq] at hc
      obtain ⟨rfl, rfl, rfl⟩ := hc
      exact ⟨by rw [hds]; exact hx, hcond⟩
    · cases hc
  · rintro ⟨h, hc⟩
    obtain ⟨ds, hds, he⟩ := Option.bind_eq_some_iff.mp h
    exact ⟨ds, i, hds, e, j, he, by rw [if_pos hc]⟩

theorem zipIdx_filterMap_nodup (i k : ℕ) : ∀ (l : List Exchange), ((l.zipIdx k).filterMap fun e => if e.1.conditional = some true then some (i, e.2, e.1) else none).Pairwise fun a b => (a.1, a.2.1) ≠ (b.1, b.2.1) := by
  intro l
  rw [List.pairwise_filterMap]
  have : (l.zipIdx k).Pairwise fun a b => a.2 ≠ b.2 := by
    rw [← List.pairwise_map (f := Prod.snd) (R := (· ≠ ·)), List.zipIdx_map_snd]
    exact List.nodup_range'
  refine this.imp ?_
  intro a b hab x hx y hy
  split at hx
  · split at hy
    · cases hx; cases hy
      simpa using hab
    · cases hy
  · cases hx

theorem constrainedExchanges_nodup (data : List Dataset) : (constrainedExchanges data).Pairwise fun a b => (a.1, a.2.1) ≠ (b.1, b.2.1) := by
  unfold constrainedExchanges
  rw [List.pairwise_flatMap]
  constructor
  · intro d _
    exact zipIdx_filterMap_nodup d.2 0 d.1.exchanges
  · have : data.zipIdx.Pairwise fun a b => a.2 ≠ b.2 := by
      rw [← List.pairwise_map (f := Prod.snd) (R := (· ≠ ·)), List.zipIdx_map_snd]
      exact List.nodup_range'
    refine this.imp ?_
    intro a b hab x hx y hy
    obtain ⟨e, _, he⟩ := List.mem_filterMap.mp hx
    obtain ⟨e', _, he'⟩ := List.mem_filterMap.mp hy
    split at he
    · split at he'
      · cases he; cases he'
        intro h
        exact hab (by simpa using congrArg Prod.fst h)
      · cases he'
    · cases he

theorem constrainedStep_inv {data st st' : List Dataset} {pre : List (ℕ × ℕ × Exchange)} {p : ℕ × ℕ × Exchange} (hby : ConstrainedAreByproducts data)
    (hp : exchangeAt data p.1 p.2.1 = some p.2.2 ∧ p.2.2.conditional = some true) (hnew : ∀ q ∈ pre, (q.1, q.2.1) ≠ (p.1, p.2.1))
    (hI : List.Forall₂ SameBalances data st ∧ ∀ i j e, exchangeAt data i j = some e → e.type = .byproduct → (∀ q ∈ pre, (q.1, q.2.1) ≠ (i, j)) → exchangeAt st i j = some e)
    (h : constrainedStep st p = .ok st') :
    List.Forall₂ SameBalances data st' ∧ ∀ i j e, exchangeAt data i j = some e → e.type = .byproduct → (∀ q ∈ pre ++ [p], (q.1, q.2.1) ≠ (i, j)) → exchangeAt st' i j = some e := by
  obtain ⟨i, j, c⟩ := p
  obtain ⟨hs, hkeep⟩ := hI
  simp only at hp hnew
  have hct : c.type = .byproduct := by
    obtain ⟨ds, hds, he⟩ := Option.bind_eq_some_iff.mp hp.1
    exact hby ds (List.mem_of_getElem? hds) c (List.mem_of_getElem? he) hp.2
  have hst : exchangeAt st i j = some c := hkeep i j c hp.1 hct hnew
  unfold constrainedStep at h
  obtain ⟨link, _, h⟩ := bind_eq_ok.mp h
  obtain ⟨l₁, d, d', l₂, hsplit, _, hf, rfl⟩ := modifyLast_split h
  have hmod := modifyExchange_same hst hct
  have hsame : List.Forall₂ SameBalances (l₁ ++ d :: l₂) (l₁ ++ d' :: l₂) :=
    List.rel_append (List.forall₂_same.mpr fun x _ => SameBalances.refl x) (.cons (swapRoles_same hf) (List.forall₂_same.mpr fun x _ => SameBalances.refl x))
  refine ⟨?_, ?_⟩
  · refine forall₂_trans' hs ?_ (fun _ _ _ a b => SameBalances.trans a b)
    refine forall₂_trans' hmod ?_ (fun _ _ _ a b => SameBalances.trans a b)
    rw [hsplit]
    exact hsame
  · intro i' j' e he ht hpre
    have hne : (i, j) ≠ (i', j') := hpre (i, j, c) (by simp)
    have h1 : exchangeAt (l₁ ++ d :: l₂) i' j' = some e := by
      rw [← hsplit, exchangeAt_modify _ hne]
      exact hkeep i' j' e he ht fun q hq => hpre q (by simp [hq])
    unfold exchangeAt at h1 ⊢
    rcases Nat.lt_trichotomy i' l₁.length with hlt | heq | hgt
    · rw [List.getElem?_append_left hlt] at h1 ⊢
      exact h1
    · subst heq
      rw [List.getElem?_append_right (le_refl _), Nat.sub_self, List.getElem?_cons_zero, Option.bind_some] at h1 ⊢
      obtain ⟨rfl, _, _, h3⟩ := swapRoles_ok hf
      simp only [List.getElem?_map, h1, Option.map_some]
      have hn : e.name ≠ c.name := by
        intro hn
        rcases h3 e (List.mem_of_getElem? h1) hn with h | h <;> rw [ht] at h <;> cases h
      simp [swapOne, ht, hn]
    · rw [List.getElem?_append_right (by omega)] at h1 ⊢
      obtain ⟨k, hk⟩ : ∃ k, i' - l₁.length = k + 1 := ⟨i' - l₁.length - 1, by omega⟩
      rw [hk, List.getElem?_cons_succ] at h1 ⊢
      exact h1

/-- **C69**: constrained markets keep all balances. In every dataset the exchanges stay the same flows in the same order with the same contributions, the net output of every
flow is unchanged, and so is the number of reference products; nothing but exchanges changes. -/
theorem C69_balances {data data' : List Dataset} (hby : ConstrainedAreByproducts data) (h : handleConstrainedMarkets data = .ok data') :
    List.Forall₂ (fun ds ds' => ds' = { ds with exchanges := ds'.exchanges } ∧ productCount ds' = productCount ds ∧ (∀ flow, flowBalance ds' flow = flowBalance ds flow) ∧
      List.Forall₂ (fun e e' : Exchange => e'.id = e.id ∧ e'.name = e.name ∧ e'.unit = e.unit ∧ signed e' = signed e) ds.exchanges ds'.exchanges) data data' := by
  have := foldE_inv' (I := fun pre st => List.Forall₂ SameBalances data st ∧ ∀ i j e, exchangeAt data i j = some e → e.type = .byproduct → (∀ q ∈ pre, (q.1, q.2.1) ≠ (i, j)) → exchangeAt st i j = some e) h
    ⟨List.forall₂_same.mpr fun x _ => SameBalances.refl x, fun _ _ _ h _ _ => h⟩ (by
      intro pre p post s s' hl hI hs
      have hmem : p ∈ constrainedExchanges data := by rw [hl]; simp
      refine constrainedStep_inv hby (mem_constrainedExchanges.mp hmem) ?_ hI hs
      intro q hq
      have hpw := constrainedExchanges_nodup data
      rw [hl, List.pairwise_append] at hpw
      exact hpw.2.2 q hq p (by simp))
  exact this.1.imp fun ds ds' hs => ⟨hs.1, hs.2.1, fun flow => hs.flowBalance flow, hs.2.2⟩

/-- **C69**, the effect of a constrained exchange `c` whose target has one reference product, of another name, and one input of `c`'s name: `c` becomes an input; in the target
the reference product becomes an input and the input of `c`'s name becomes the reference product; every amount changes its sign; everything else stays as it is. -/
theorem C69_roles {data pre post : List Dataset} {market target : Dataset} {es fs : List Exchange} {c rp input : Exchange} {link : String}
    (hdata : data = pre ++ market :: post) (hex : market.exchanges = es ++ c :: fs) (hids : (data.map (·.id)).Nodup) (hc : c.conditional = some true)
    (honly : (∀ ds ∈ pre ++ post, ∀ e ∈ ds.exchanges, e.conditional ≠ some true) ∧ ∀ e ∈ es ++ fs, e.conditional ≠ some true) (hlink : c.activityLink = some link)
    (ht : target ∈ pre ++ post) (hid : target.id = link) (hrp : target.exchanges.filter (fun e => e.type = .referenceProduct) = [rp]) (hne : rp.name ≠ c.name)
    (hin : target.exchanges.filter (fun e => e.name = c.name) = [input]) (hit : input.type = .fromTechnosphere) :
    handleConstrainedMarkets data = .ok (data.map fun ds =>
      if ds.id = market.id then { ds with exchanges := es ++ asInput c :: fs }
      else if ds.id = link then { ds with exchanges := ds.exchanges.map fun e => if e.type = .referenceProduct then asInput e else if e.name = c.name then asProduct e else e }
      else ds) := by
  have hnone : ∀ (l : List Exchange) (i k : ℕ), (∀ e ∈ l, e.conditional ≠ some true) → ((l.zipIdx k).filterMap fun e => if e.1.conditional = some true then some (i, e.2, e.1) else none) = [] := by
    intro l i k hl
    rw [List.filterMap_eq_nil_iff]
    intro e he
    rw [if_neg]
    exact hl e.1 (List.fst_mem_of_mem_zipIdx he)
  have hnones : ∀ (l : List Dataset) (k : ℕ), (∀ ds ∈ l, ∀ e ∈ ds.exchanges, e.conditional ≠ some true) →
      ((l.zipIdx k).flatMap fun d => d.1.exchanges.zipIdx.filterMap fun e => if e.1.conditional = some true then some (d.2, e.2, e.1) else none) = [] := by
    intro l k hl
    rw [List.flatMap_eq_nil_iff]
    intro d hd
    exact hnone _ _ _ (hl d.1 (List.fst_mem_of_mem_zipIdx hd))
  have hpos : constrainedExchanges data = [(pre.length, es.length, c)] := by
    unfold constrainedExchanges
    rw [hdata, List.zipIdx_append, List.flatMap_append, List.zipIdx_cons, List.flatMap_cons, hnones pre _ (fun ds hds => honly.1 ds (by simp [hds])),
      hnones post _ (fun ds hds => honly.1 ds (by simp [hds]))]
    simp only [hex, List.zipIdx_append, List.filterMap_append, List.zipIdx_cons, List.filterMap_cons, List.nil_append, List.append_nil]
    rw [hnone es _ _ (fun e he => honly.2 e (by simp [he])), hnone fs _ _ (fun e he => honly.2 e (by simp [he]))]
    simp [hc]
  have hmi : ∀ ds ∈ pre ++ post, ds.id ≠ market.id := by
    rw [hdata, List.map_append, List.map_cons, List.nodup_append] at hids
    obtain ⟨_, h2, h3⟩ := hids
    rw [List.nodup_cons] at h2
    intro ds hds
    rcases List.mem_append.mp hds with h | h
    · exact h3 ds.id (List.mem_map_of_mem h) market.id (by simp)
    · intro he
      exact h2.1 (he ▸ List.mem_map_of_mem h)
  have hstep1 : modifyExchange pre.length es.length toInput data = data.map fun ds => if ds.id = market.id then { ds with exchanges := es ++ asInput c :: fs } else ds := by
    have hin' : toInput c = asInput c := by simp [toInput, flipSign, asInput]
    unfold modifyExchange
    rw [hdata, modify_at_length, List.map_append, List.map_cons, if_pos rfl, hex, modify_at_length, hin']
    rw [List.map_congr_left (g := id), List.map_id, List.map_congr_left (l := post) (g := id), List.map_id]
    · intro ds hds
      rw [if_neg (hmi ds (by simp [hds]))]; rfl
    · intro ds hds
      rw [if_neg (hmi ds (by simp [hds]))]; rfl
  have hrpm : rp ∈ target.exchanges ∧ rp.type = .referenceProduct := by
    have : rp ∈ target.exchanges.filter (fun e => e.type = .referenceProduct) := by rw [hrp]; simp
    simpa using this
  have hswap : swapRoles c.name target = .ok { target with exchanges := target.exchanges.map fun e => if e.type = .referenceProduct then asInput e else if e.name = c.name then asProduct e else e } := by
    unfold swapRoles
    have hsingle : getSingleReferenceProduct target = .ok rp := by
      unfold getSingleReferenceProduct referenceProducts
      have hfe : (target.exchanges.filter fun e => e.type == .referenceProduct) = target.exchanges.filter fun e => decide (e.type = .referenceProduct) := by
        apply List.filter_congr; intro e _; rw [Bool.eq_iff_iff]; simp
      rw [hfe, hrp]
    rw [hsingle]
    simp only [ebind_ok]
    have hnamed : ((target.exchanges.map fun e => if e.type = .referenceProduct then toInput e else e).filter fun e => e.name == c.name) = [input] := by
      rw [List.filter_map]
      have h1 : (target.exchanges.filter ((fun e : Exchange => e.name == c.name) ∘ fun e => if e.type = .referenceProduct then toInput e else e)) = [input] := by
        rw [← hin]
        apply List.filter_congr
        intro e _
        rw [Bool.eq_iff_iff]
        simp only [Function.comp_apply, beq_iff_eq, decide_eq_true_eq]
        split <;> rfl
      rw [h1]
      simp [hit]
    rw [hnamed]
    simp only [hit, if_true, epure, List.map_map]
    congr 2
    apply List.map_congr_left
    intro e he
    simp only [Function.comp_apply]
    by_cases hr : e.type = .referenceProduct
    · simp only [hr, if_true]
      have hen : e.name ≠ c.name := by
        have : e ∈ target.exchanges.filter (fun e => e.type = .referenceProduct) := List.mem_filter.mpr ⟨he, by simpa using hr⟩
        rw [hrp, List.mem_singleton] at this
        rw [this]; exact hne
      rw [if_neg (show ¬ (toInput e).name = c.name from hen)]
      simp [toInput, flipSign, asInput]
    · simp only [hr, if_false]
      by_cases hn : e.name = c.name
      · simp only [hn, if_true]
        simp [toProduct, flipSign, asProduct]
      · simp only [hn, if_false]
  unfold handleConstrainedMarkets
  rw [hpos]
  simp only [foldE, constrainedStep, hlink, getKey_some, ebind_ok, hstep1]
  have htm : target.id ≠ market.id := hmi target ht
  have key : ∀ (l : List Dataset), (l.map (·.id)).Nodup → target ∈ l →
      modifyLast link (swapRoles c.name) (l.map fun ds => if ds.id = market.id then { ds with exchanges := es ++ asInput c :: fs } else ds) =
        .ok (l.map fun ds => if ds.id = market.id then { ds with exchanges := es ++ asInput c :: fs } else if ds.id = link then { ds with exchanges := ds.exchanges.map fun e => if e.type = .referenceProduct then asInput e else if e.name = c.name then asProduct e else e } else ds) := by
    intro l
    induction l with
    | nil => intro _ h; simp at h
    | cons d l ih =>
      intro hnd hmem
      rw [List.map_cons, List.nodup_cons] at hnd
      rw [List.map_cons, modifyLast]
      have hidd : ∀ d : Dataset, (if d.id = market.id then { d with exchanges := es ++ asInput c :: fs } else d).id = d.id := by intro d; split <;> rfl
      rcases List.mem_cons.mp hmem with rfl | hmem'
      · rw [if_neg, hidd, if_pos hid, if_neg htm, hswap]
        · simp only [ebind_ok, epure, List.map_cons, if_neg htm, if_pos hid]
          congr 2
          apply List.map_congr_left
          intro x hx
          have : x.id ≠ link := by
            rw [← hid]
            intro he
            exact hnd.1 (he ▸ List.mem_map_of_mem hx)
          simp only [this, if_false]
        · rw [List.any_eq_true]
          rintro ⟨x, hx, hxi⟩
          obtain ⟨y, hy, rfl⟩ := List.mem_map.mp hx
          rw [hidd, beq_iff_eq, ← hid] at hxi
          exact hnd.1 (hxi ▸ List.mem_map_of_mem hy)
      · rw [if_pos, ih hnd.2 hmem']
        · simp only [ebind_ok, epure, List.map_cons]
          have : d.id ≠ link := by
            rw [← hid]
            intro he
            exact hnd.1 (he ▸ List.mem_map_of_mem hmem')
          simp only [this, if_false]
        · rw [List.any_eq_true]
          exact ⟨_, List.mem_map_of_mem hmem', by rw [hidd, hid]; simp⟩
  rw [key data hids (by rw [hdata]; rcases List.mem_append.mp ht with h | h <;> simp [h])]
  rfl

def Spec.exampleConstrained : List Dataset :=
  [{ name := "market for x", id := "m", type := .market, exchanges := [{ name := "x", type := .referenceProduct, amount := 1 }, { name := "y", type := .byproduct, amount := -2, formula := some "a", conditional := some true, activityLink := some "t" }] },
   { name := "treatment", id := "t", exchanges := [{ name := "z", type := .referenceProduct, amount := 3, pv := some { amount := 7 } }, { name := "y", type := .fromTechnosphere, amount := 4 }, { name := "w", type := .fromTechnosphere, amount := 5 }] }]

def Spec.exampleHandled : List Dataset :=
  [{ name := "market for x", id := "m", type := .market, exchanges := [{ name := "x", type := .referenceProduct, amount := 1 }, { name := "y", type := .fromTechnosphere, amount := 2, formula := some "-1 * (a)", conditional := some true, activityLink := some "t" }] },
   { name := "treatment", id := "t", exchanges := [{ name := "z", type := .fromTechnosphere, amount := -3, pv := some { amount := 7 } }, { name := "y", type := .referenceProduct, cls := some .allocatable, amount := -4 }, { name := "w", type := .fromTechnosphere, amount := 5 }] }]

example : handleConstrainedMarkets exampleConstrained = .ok exampleHandled := by decide +kernel

example : ∃ data', handleConstrainedMarkets exampleConstrained = .ok data' :=
  ⟨_, C69_roles (data := exampleConstrained) (pre := []) (es := [{ name := "x", type := .referenceProduct, amount := 1 }]) (fs := []) (link := "t") rfl rfl (by decide) rfl
    (by decide +kernel) rfl (target := exampleConstrained[1]) (rp := { name := "z", type := .referenceProduct, amount := 3, pv := some { amount := 7 } }) (input := { name := "y", type := .fromTechnosphere, amount := 4 }) (by simp [exampleConstrained]) rfl (by decide +kernel) (by decide) (by decide +kernel) rfl⟩

example : ConstrainedAreByproducts exampleConstrained := by
  unfold ConstrainedAreByproducts; decide +kernel

/-! ## C80 -/

/-- **C80** is false: whenever a constrained exchange swaps the roles in its target, as in `C69_roles`, and the input had no production volume (inputs have none), the target is left
without a reference production volume. -/
theorem C80_no_volume {target : Dataset} {c rp input : Exchange} (hrp : target.exchanges.filter (fun e => e.type = .referenceProduct) = [rp]) (hne : rp.name ≠ c.name)
    (hin : target.exchanges.filter (fun e => e.name = c.name) = [input]) (hpv : input.pv = none) :
    productionVolume { target with exchanges := target.exchanges.map fun e => if e.type = .referenceProduct then asInput e else if e.name = c.name then asProduct e else e } = none := by
  unfold productionVolume referenceProducts
  simp only [List.filter_map]
  have : target.exchanges.filter ((fun e : Exchange => e.type == .referenceProduct) ∘ fun e => if e.type = .referenceProduct then asInput e else if e.name = c.name then asProduct e else e) = [input] := by
    rw [← hin]
    apply List.filter_congr
    intro e he
    rw [Bool.eq_iff_iff]
    simp only [Function.comp_apply, beq_iff_eq, decide_eq_true_eq]
    by_cases hr : e.type = .referenceProduct
    · have hen : e.name ≠ c.name := by
        have : e ∈ target.exchanges.filter (fun e => e.type = .referenceProduct) := List.mem_filter.mpr ⟨he, by simpa using hr⟩
        rw [hrp, List.mem_singleton] at this
        rw [this]; exact hne
      simp [hr, hen, asInput]
    · by_cases hn : e.name = c.name
      · simp [hr, hn, asProduct]
      · simp [hr, hn]
  rw [this]
  have hnotrp : input.type ≠ .referenceProduct := by
    intro hr
    have h1 : input ∈ target.exchanges.filter (fun e => e.name = c.name) := by rw [hin]; simp
    rw [List.mem_filter] at h1
    have h2 : input ∈ target.exchanges.filter (fun e => e.type = .referenceProduct) := List.mem_filter.mpr ⟨h1.1, by simpa using hr⟩
    rw [hrp, List.mem_singleton] at h2
    apply hne
    rw [← h2]
    simpa using h1.2
  have hname : input.name = c.name := by
    have h1 : input ∈ target.exchanges.filter (fun e => e.name = c.name) := by rw [hin]; simp
    simpa using (List.mem_filter.mp h1).2
  simp [hnotrp, hname, asProduct, hpv]

example : (exampleHandled.map productionVolume, exampleConstrained.map productionVolume) = ([none, none], [none, some 7]) := by decide +kernel

/-! ## C81 -/

/-- **C81**, what `switch_undefined_to_current` does to labelled datasets: the undefined levels of transforming activities become current, and nothing else changes. -/
theorem C81_switch_partial {data : List Dataset} (h : ∀ ds ∈ data, ds.type = .transforming → ds.technologyLevel.isSome ∧ ds.refProduct.isSome) :
    switchUndefinedToCurrent data = .ok (data.map fun ds => if ds.type = .transforming ∧ ds.technologyLevel = some "undefined" then { ds with technologyLevel := some "current" } else ds) := by
  unfold switchUndefinedToCurrent
  rw [← mapE_pure]
  apply mapE_congr
  intro ds hds
  unfold switchLevel
  by_cases ht : ds.type = .transforming
  · obtain ⟨t, hl⟩ := Option.isSome_iff_exists.mp (h ds hds ht).1
    obtain ⟨r, hr⟩ := Option.isSome_iff_exists.mp (h ds hds ht).2
    rw [if_pos ht, hl]
    simp only [getKey_some, ebind_ok]
    by_cases hu : t = "undefined"
    · rw [if_pos hu, hr, if_pos ⟨ht, by rw [hu]⟩]; rfl
    · rw [if_neg hu, if_neg (by simp [hu])]; rfl
  · rw [if_neg ht, if_neg (by simp [ht])]

/-- The technology levels that extraction produces. -/
def Spec.extractedLevels : List String := "undefined" :: technologyOrder

/-- **C81**: after it, every transforming activity has a level that suppliers can be chosen by, so that pruning a market supplied by such activities cannot fail (`C68_failure`). -/
theorem C81_levels_partial {data data' : List Dataset} (h : switchUndefinedToCurrent data = .ok data')
    (hl : ∀ ds ∈ data, ds.type = .transforming → ∃ l ∈ extractedLevels, ds.technologyLevel = some l) :
    ∀ ds ∈ data', ds.type = .transforming → ∃ l ∈ technologyOrder, ds.technologyLevel = some l := by
  intro ds' hds' ht
  obtain ⟨ds, hds, hs⟩ := forall₂_mem_right (mapE_ok_iff.mp h) hds'
  unfold switchLevel at hs
  by_cases htd : ds.type = .transforming
  · obtain ⟨l, hlm, hle⟩ := hl ds hds htd
    rw [if_pos htd, hle] at hs
    simp only [getKey_some, ebind_ok] at hs
    by_cases hu : l = "undefined"
    · rw [if_pos hu] at hs
      obtain ⟨_, _, hs⟩ := bind_eq_ok.mp hs
      cases hs
      exact ⟨"current", by decide, rfl⟩
    · rw [if_neg hu] at hs
      cases hs
      exact ⟨l, (List.mem_cons.mp hlm).resolve_left hu, hle⟩
  · rw [if_neg htd] at hs
    cases hs
    exact absurd ht htd

/-- **C81** is false of the consequential configuration, which does not call it: a market all of whose suppliers have an undefined level stops the run. -/
theorem C81_undefined_stops {data : List Dataset} {ds : Dataset} {suppliers : List Exchange} (hds : ds ∈ data) (hm : SuppliedMarket ds suppliers)
    (hu : ∀ s ∈ suppliers, s.technologyLevel = some "undefined") : ∃ e, pruneByTechnologyLevel data = .error e := by
  rw [C68_failure]
  refine ⟨ds, hds, suppliers, hm, .inr ?_⟩
  intro s hs l hl he
  rw [hu s hs] at he
  cases he
  exact absurd hl (by decide)

example : switchUndefinedToCurrent [{ name := "a", refProduct := some "p", technologyLevel := some "undefined" }, { name := "b", refProduct := some "p", technologyLevel := some "old" }] =
    .ok [{ name := "a", refProduct := some "p", technologyLevel := some "current" }, { name := "b", refProduct := some "p", technologyLevel := some "old" }] := by decide +kernel

end Ocelot
