import Verif.Model.Linking
import Verif.Props.MarketGroups

/-! # Properties C48, C49, C50, C52: codes and direct links -/

set_option linter.unusedSimpArgs false

namespace Ocelot
open Spec

/-! ## Specification -/

namespace Spec

/-- The datasets with id `l` that make the product `name`. -/
def linkTargets (data : List Dataset) (l name : String) : List Dataset :=
  data.filter fun d => decide (d.id = l ∧ d.refProduct = some name)

/-- The exchange `e` has an activity link, and `d` is the only dataset it can mean. -/
def MeansOnly (data : List Dataset) (e : Exchange) (d : Dataset) : Prop :=
  ∃ l, e.activityLink = some l ∧ l ≠ "" ∧ linkTargets data l e.name = [d]

/-- `r` contains the recycled content marker. -/
def IsRecycledContent (r : String) : Prop := ∃ a b, r.toList = a ++ (", Recycled Content cut-off").toList ++ b

/-- An input from the technosphere without a code. -/
def NoCode (e : Exchange) : Prop := e.type = .fromTechnosphere ∧ (e.code = none ∨ e.code = some "")

/-- The dataset `d` is the only transforming activity for the product `name`, which is recycled content. -/
def OnlyRecycler (data : List Dataset) (name : String) (d : Dataset) : Prop :=
  IsRecycledContent name ∧ producers .transforming name data = [d]

/-- `d'` is `d` with its exchanges changed one by one according to `R`. -/
def ExchangesBy (R : Exchange → Exchange → Prop) (d d' : Dataset) : Prop :=
  ∃ ex, d' = { d with exchanges := ex } ∧ List.Forall₂ R d.exchanges ex

/-- The text that identifies a dataset: its lower case attributes one after the other. -/
def identity (lower : String → String) (d : Dataset) : String :=
  lower d.name ++ lower (d.refProduct.getD "") ++ lower (d.unit.getD "") ++ lower d.location ++
    lower (d.startDate.getD "") ++ lower (d.endDate.getD "")

end Spec

/-! ## Helpers -/

theorem isUnlinked_iff {e : Exchange} : isUnlinked e = true ↔ NoCode e := by
  unfold isUnlinked NoCode
  cases e.code <;> simp

theorem linkToOnly_ok {e e' : Exchange} {refs : List Dataset} (h : linkToOnly e refs = .ok e') :
    (∀ d, refs = [d] → d.code.isSome ∧ e' = { e with code := d.code }) ∧ ((∀ d, refs ≠ [d]) → e' = e) := by
  unfold linkToOnly at h
  split at h
  · next found =>
    obtain ⟨c, hc, h⟩ := bind_eq_ok.mp h
    have hc := getKey_eq_ok.mp hc
    cases h
    refine ⟨?_, fun hn => absurd rfl (hn found)⟩
    rintro d hd
    cases hd
    exact ⟨by simp [hc], by rw [hc]⟩
  · next hno =>
    cases h
    exact ⟨fun d hd => absurd hd (hno d), fun _ => rfl⟩

theorem linkToOnly_total {e : Exchange} {refs : List Dataset} (h : ∀ d ∈ refs, d.code.isSome) : ∃ e', linkToOnly e refs = .ok e' := by
  unfold linkToOnly
  split
  · next found =>
    obtain ⟨c, hc⟩ := Option.isSome_iff_exists.mp (h found (by simp))
    rw [hc]
    exact ⟨_, rfl⟩
  · exact ⟨_, rfl⟩

theorem mapExchangesE_ok {f : Exchange → Except Err Exchange} {d d' : Dataset} (h : mapExchangesE f d = .ok d') :
    ExchangesBy (fun e e' => f e = .ok e') d d' := by
  obtain ⟨ex, hex, h⟩ := bind_eq_ok.mp h
  cases h
  exact ⟨ex, rfl, mapE_ok_iff.mp hex⟩

theorem mapExchangesE_total {f : Exchange → Except Err Exchange} {d : Dataset} (h : ∀ e ∈ d.exchanges, ∃ e', f e = .ok e') :
    ∃ d', mapExchangesE f d = .ok d' := by
  obtain ⟨r, hr⟩ := mapE_ok_of_forall h
  unfold mapExchangesE
  rw [hr]
  exact ⟨_, rfl⟩

theorem filterE_ok_filter {α : Type} {p : α → Except Err Bool} {q : α → Bool} {l r : List α} (h : filterE p l = .ok r)
    (hq : ∀ a ∈ l, ∀ b, p a = .ok b → b = q a) : r = l.filter q := by
  have := filterE_eq_filter (p := p) (q := q) (l := l) (by
    intro a ha
    obtain ⟨b, hb⟩ := filterE_ok_all h a ha
    rw [hb, hq a ha b hb])
  rw [h] at this
  exact Except.ok.inj this

theorem makesProduct_filter {name : String} {l r : List Dataset} (h : filterE (makesProduct name) l = .ok r) :
    r = l.filter fun d => decide (d.refProduct = some name) := by
  refine filterE_ok_filter h fun d hd b hb => ?_
  obtain ⟨x, hx, hb⟩ := bind_eq_ok.mp hb
  cases hb
  rw [getKey_eq_ok.mp hx, Bool.eq_iff_iff]
  simp

/-! ## C50 -/

/-- C50: an activity link gets the code of the only dataset with the linked id and the right reference product; if there is no
such dataset or several, the exchange is unchanged, as are all exchanges without a link and everything else. -/
theorem C50_activity_links (data out : List Dataset) (h : actualizeActivityLinks data = .ok out) :
    List.Forall₂ (ExchangesBy fun e e' =>
      (∀ d, MeansOnly data e d → d.code.isSome ∧ e' = { e with code := d.code }) ∧ ((∀ d, ¬ MeansOnly data e d) → e' = e)) data out := by
  refine (mapE_ok_iff.mp h).imp ?_
  intro d d' hd
  obtain ⟨ex, hex, hF⟩ := mapExchangesE_ok hd
  refine ⟨ex, hex, hF.imp ?_⟩
  intro e e' he
  unfold actualizeLink at he
  by_cases hl : e.activityLink.getD "" = ""
  · rw [if_pos hl] at he
    cases he
    refine ⟨?_, fun _ => rfl⟩
    rintro d ⟨l, h1, h2, -⟩
    rw [h1] at hl
    exact absurd hl h2
  · rw [if_neg hl] at he
    have : ∃ l, e.activityLink = some l ∧ l ≠ "" := by
      cases hh : e.activityLink with
      | none => rw [hh] at hl; simp at hl
      | some l => rw [hh] at hl; exact ⟨l, rfl, hl⟩
    obtain ⟨l, hl1, hl2⟩ := this
    dsimp only at he
    split at he
    · cases he
    · obtain ⟨references, hr, he⟩ := bind_eq_ok.mp he
      have hrf := makesProduct_filter hr
      have hrt : references = linkTargets data l e.name := by
        rw [hrf, List.filter_filter]
        unfold linkTargets
        apply List.filter_congr
        intro d _
        rw [hl1, Bool.eq_iff_iff]
        simp
        tauto
      obtain ⟨h1, h2⟩ := linkToOnly_ok he
      rw [hrt] at h1 h2
      refine ⟨?_, fun hn => h2 fun d hd => hn d ⟨l, hl1, hl2, hd⟩⟩
      rintro d ⟨l', hl1', -, hd⟩
      rw [hl1] at hl1'
      cases hl1'
      exact h1 d hd

/-- C50: the transformation succeeds if all datasets have reference products and codes and all linked ids exist. -/
theorem C50_total (data : List Dataset) (hr : ∀ d ∈ data, d.refProduct.isSome ∧ d.code.isSome)
    (hl : ∀ d ∈ data, ∀ e ∈ d.exchanges, ∀ l, e.activityLink = some l → l ≠ "" → ∃ t ∈ data, t.id = l) :
    ∃ out, actualizeActivityLinks data = .ok out := by
  refine mapE_ok_of_forall fun d hd => mapExchangesE_total fun e he => ?_
  unfold actualizeLink
  by_cases hk : e.activityLink.getD "" = ""
  · rw [if_pos hk]; exact ⟨_, rfl⟩
  · rw [if_neg hk]
    have : ∃ l, e.activityLink = some l ∧ l ≠ "" := by
      cases hh : e.activityLink with
      | none => rw [hh] at hk; simp at hk
      | some l => rw [hh] at hk; exact ⟨l, rfl, hk⟩
    obtain ⟨l, hl1, hl2⟩ := this
    obtain ⟨t, ht, htl⟩ := hl d hd e he l hl1 hl2
    have hne : (data.filter fun ds => decide (some ds.id = e.activityLink)) ≠ [] :=
      List.ne_nil_of_mem (List.mem_filter.mpr ⟨ht, by rw [hl1]; simp [htl]⟩)
    dsimp only
    rw [if_neg hne]
    obtain ⟨r, hrr⟩ : ∃ r, filterE (makesProduct e.name) (data.filter fun ds => decide (some ds.id = e.activityLink)) = .ok r := by
      refine ⟨_, filterE_eq_filter (q := fun d : Dataset => decide (d.refProduct = some e.name)) fun a ha => ?_⟩
      obtain ⟨x, hx⟩ := Option.isSome_iff_exists.mp (hr a (List.mem_filter.mp ha).1).1
      unfold makesProduct
      rw [hx]
      simp [getKey, bind, Except.bind, pure, Except.pure, beq_eq_decide]
    have hsub : ∀ a ∈ r, a ∈ data := by
      intro a ha
      rw [makesProduct_filter hrr] at ha
      exact (List.mem_filter.mp (List.mem_filter.mp ha).1).1
    obtain ⟨e', he'⟩ := linkToOnly_total (e := e) (refs := r) fun a ha => (hr a (hsub a ha)).2
    refine ⟨e', ?_⟩
    change (pure () >>= fun _ => filterE (makesProduct e.name) _ >>= _) = _
    rw [hrr]
    exact he'

/-- C50: an id that does not exist stops the transformation. -/
theorem C50_dangling (data : List Dataset) (d : Dataset) (e : Exchange) (l : String) (hd : d ∈ data) (he : e ∈ d.exchanges)
    (hl : e.activityLink = some l) (hl' : l ≠ "") (hno : ∀ t ∈ data, t.id ≠ l) : ∀ out, actualizeActivityLinks data ≠ .ok out := by
  intro out h
  obtain ⟨d', -, hdd⟩ := forall₂_mem_left (mapE_ok_iff.mp h) hd
  obtain ⟨ex, -, hF⟩ := mapExchangesE_ok hdd
  obtain ⟨e', -, hee⟩ := forall₂_mem_left hF he
  unfold actualizeLink at hee
  rw [if_neg (by rw [hl]; exact hl')] at hee
  dsimp only at hee
  rw [if_pos] at hee
  · cases hee
  · rw [List.filter_eq_nil_iff]
    intro a ha
    rw [hl]
    simpa using hno a ha

/-- C50: after `add_reference_product_codes` the only reference product of each dataset carries the dataset's code; nothing
else changes. The function succeeds exactly if every dataset has a code and one reference product. -/
theorem C50_reference_codes (data : List Dataset) :
    (∀ out, addReferenceProductCodes data = .ok out → List.Forall₂ (ExchangesBy fun e e' => e'.type = e.type ∧
      (e.type ≠ .referenceProduct → e' = e)) data out ∧
      List.Forall₂ (fun d d' => ∃ c r, d.code = some c ∧ refs d = [r] ∧ refs d' = [{ r with code := some c }]) data out) ∧
    ((∃ out, addReferenceProductCodes data = .ok out) ↔ ∀ d ∈ data, d.code.isSome ∧ (refs d).length = 1) := by
  have key : ∀ d d', addReferenceProductCode d = .ok d' ↔ ∃ c r, d.code = some c ∧ refs d = [r] ∧
      d' = { d with exchanges := d.exchanges.map fun e => if e.type = .referenceProduct then { e with code := some c } else e } := by
    intro d d'
    unfold addReferenceProductCode
    cases hc : d.code with
    | none => simp
    | some c =>
      simp only [bind_eq_ok, Option.some.injEq]
      constructor
      · rintro ⟨r, hr, h⟩
        cases h
        exact ⟨c, r, rfl, getSingle_ok.mp hr, rfl⟩
      · rintro ⟨c', r, rfl, hr, rfl⟩
        exact ⟨r, getSingle_ok.mpr hr, rfl⟩
  constructor
  · intro out h
    have hF := mapE_ok_iff.mp h
    constructor
    · refine hF.imp ?_
      intro d d' hd
      obtain ⟨c, r, -, -, rfl⟩ := (key d d').mp hd
      refine ⟨_, rfl, ?_⟩
      rw [List.forall₂_map_right_iff, List.forall₂_same]
      intro e _
      by_cases he : e.type = .referenceProduct
      · simp [he]
      · simp [he]
    · refine hF.imp ?_
      intro d d' hd
      obtain ⟨c, r, hc, hr, rfl⟩ := (key d d').mp hd
      refine ⟨c, r, hc, hr, ?_⟩
      unfold refs at hr ⊢
      simp only
      generalize d.exchanges = l at hr
      have : ∀ l : List Exchange, (l.map fun e => if e.type = .referenceProduct then { e with code := some c } else e).filter
          (fun e => e.type == .referenceProduct) = (l.filter fun e => e.type == .referenceProduct).map fun e => { e with code := some c } := by
        intro l
        induction l with
        | nil => rfl
        | cons e l ih =>
          by_cases he : e.type = .referenceProduct
          · simp [he, ih]
          · simp [he, ih]
      rw [this, hr]
      rfl
  · constructor
    · rintro ⟨out, h⟩ d hd
      obtain ⟨d', -, hdd⟩ := forall₂_mem_left (mapE_ok_iff.mp h) hd
      obtain ⟨c, r, hc, hr, -⟩ := (key d d').mp hdd
      simp [hc, hr]
    · intro hall
      refine mapE_ok_of_forall fun d hd => ?_
      obtain ⟨h1, h2⟩ := hall d hd
      obtain ⟨c, hc⟩ := Option.isSome_iff_exists.mp h1
      obtain ⟨r, hr⟩ := List.length_eq_one_iff.mp h2
      exact ⟨_, (key d _).mpr ⟨c, r, hc, hr, rfl⟩⟩

/-- Two activities, the second linked to the first; the third has an ambiguous link. -/
def exampleLinked : List Dataset :=
  [{ name := "a", id := "1", refProduct := some "p", code := some "c1", exchanges := [{ name := "p", type := .referenceProduct, amount := 1 }] },
   { name := "b", id := "2", refProduct := some "q", code := some "c2", exchanges := [{ name := "q", type := .referenceProduct, amount := 1 }, { name := "p", type := .fromTechnosphere, amount := 2, activityLink := some "1" }] },
   { name := "c", id := "3", refProduct := some "r", code := some "c3", exchanges := [{ name := "r", type := .referenceProduct, amount := 1 }, { name := "x", type := .fromTechnosphere, amount := 2, activityLink := some "1" }] }]

example : (actualizeActivityLinks exampleLinked).map (fun l => l.map fun d => d.exchanges.map (·.code)) =
    .ok [[none], [none, some "c1"], [none, none]] := by decide +kernel
example : (addReferenceProductCodes exampleLinked).map (fun l => l.map fun d => d.exchanges.map (·.code)) =
    .ok [[some "c1"], [some "c2", none], [some "c3", none]] := by decide +kernel

/-! ## C52 -/

/-- C52: exactly the inputs without code whose flow is recycled content made by one transforming activity get this activity's
code; nothing else changes. -/
theorem C52_recycled_inputs (data out : List Dataset) (h : linkRecycledContent data = .ok out) :
    List.Forall₂ (ExchangesBy fun e e' =>
      (∀ d, NoCode e → OnlyRecycler data e.name d → d.code.isSome ∧ e' = { e with code := d.code }) ∧
      ((∀ d, ¬ (NoCode e ∧ OnlyRecycler data e.name d)) → e' = e)) data out := by
  obtain ⟨rc, hrc, h⟩ := bind_eq_ok.mp h
  have hrc' : rc = data.filter fun d => decide ((rcString.toList <:+: (d.refProduct.getD "").toList) ∧ d.refProduct.isSome ∧ d.type = .transforming) := by
    refine filterE_ok_filter hrc fun d hd b hb => ?_
    obtain ⟨x, hx, hb⟩ := bind_eq_ok.mp hb
    cases hb
    rw [getKey_eq_ok.mp hx, Bool.eq_iff_iff]
    simp
  have hmark : ∀ r : String, IsRecycledContent r ↔ rcString.toList <:+: r.toList := by
    intro r
    unfold IsRecycledContent List.IsInfix
    exact ⟨fun ⟨a, b, h⟩ => ⟨a, b, h.symm⟩, fun ⟨a, b, h⟩ => ⟨a, b, h.symm⟩⟩
  have hsel : ∀ name : String, (rc.filter fun ds => ds.refProduct == some name) =
      if rcString.toList <:+: name.toList then producers .transforming name data else [] := by
    intro name
    rw [hrc', List.filter_filter]
    by_cases hn : rcString.toList <:+: name.toList
    · rw [if_pos hn]
      unfold producers
      apply List.filter_congr
      intro d _
      rw [Bool.eq_iff_iff]
      simp only [Bool.and_eq_true, beq_iff_eq, decide_eq_true_eq]
      constructor
      · rintro ⟨h1, h2, h3, h4⟩; exact ⟨h4, h1⟩
      · rintro ⟨h1, h2⟩; rw [h2]; exact ⟨rfl, hn, rfl, h1⟩
    · rw [if_neg hn, List.filter_eq_nil_iff]
      intro d _ hc
      simp only [Bool.and_eq_true, beq_iff_eq, decide_eq_true_eq] at hc
      rw [hc.1] at hc
      exact hn hc.2.1
  refine (mapE_ok_iff.mp h).imp ?_
  intro d d' hd
  obtain ⟨ex, hex, hF⟩ := mapExchangesE_ok hd
  refine ⟨ex, hex, hF.imp ?_⟩
  intro e e' he
  unfold linkRecycledInput at he
  by_cases hu : isUnlinked e = true
  · rw [if_pos hu, hsel] at he
    obtain ⟨h1, h2⟩ := linkToOnly_ok he
    constructor
    · rintro d - ⟨hr, hp⟩
      rw [hmark] at hr
      rw [if_pos hr] at h1
      exact h1 d hp
    · intro hno
      refine h2 fun d hd => ?_
      split at hd
      · next hn => exact hno d ⟨isUnlinked_iff.mp hu, (hmark _).mpr hn, hd⟩
      · cases hd
  · rw [if_neg hu] at he
    cases he
    exact ⟨fun d hn _ => absurd (isUnlinked_iff.mpr hn) hu, fun _ => rfl⟩

/-- C52: the transformation succeeds if every dataset has a reference product and a code. -/
theorem C52_total (data : List Dataset) (hr : ∀ d ∈ data, d.refProduct.isSome ∧ d.code.isSome) : ∃ out, linkRecycledContent data = .ok out := by
  have h1 : filterE makesRecycledContent data = .ok (data.filter fun d => decide (rcString.toList <:+: (d.refProduct.getD "").toList) && d.type == .transforming) := by
    refine filterE_eq_filter fun a ha => ?_
    obtain ⟨x, hx⟩ := Option.isSome_iff_exists.mp (hr a ha).1
    unfold makesRecycledContent
    rw [hx]
    rfl
  unfold linkRecycledContent
  rw [h1]
  refine mapE_ok_of_forall fun d hd => mapExchangesE_total fun e he => ?_
  unfold linkRecycledInput
  by_cases hu : isUnlinked e = true
  · rw [if_pos hu]
    exact linkToOnly_total fun a ha => (hr a (List.mem_filter.mp (List.mem_filter.mp ha).1).1).2
  · rw [if_neg hu]
    exact ⟨_, rfl⟩

/-- A recycled content producer and two consumers. -/
def exampleRecyclers : List Dataset :=
  [{ name := "collection", refProduct := some "p, Recycled Content cut-off", code := some "c1" },
   { name := "use", refProduct := some "q", code := some "c2", exchanges := [{ name := "p, Recycled Content cut-off", type := .fromTechnosphere, amount := 2 }, { name := "p", type := .fromTechnosphere, amount := 2 }] }]

example : (linkRecycledContent exampleRecyclers).map (fun l => l.map fun d => d.exchanges.map (·.code)) = .ok [[], [some "c1", none]] := by
  decide +kernel

/-! ## C48 -/

/-- C48 fails: if every dataset has a (nonempty) code, the transformation deletes nothing at all. -/
theorem C48_deletes_nothing (data : List Dataset) (hc : ∀ d ∈ data, d.code.isSome ∧ d.code ≠ some "") : logAndDeleteUnlinked data = data := by
  unfold logAndDeleteUnlinked
  conv_rhs => rw [← List.map_id data]
  apply List.map_congr_left
  intro d hd
  obtain ⟨h1, h2⟩ := hc d hd
  obtain ⟨c, hcd⟩ := Option.isSome_iff_exists.mp h1
  have : (d.code.getD "" != "") = true := by
    rw [hcd] at h2 ⊢
    simpa using h2
  simp [this]

/-- C48 fails: so every input without a code is still there. -/
theorem C48_unlinked_remain (data : List Dataset) (hc : ∀ d ∈ data, d.code.isSome ∧ d.code ≠ some "") (d : Dataset) (hd : d ∈ data)
    (e : Exchange) (he : e ∈ d.exchanges) (_ : NoCode e) : ∃ d' ∈ logAndDeleteUnlinked data, e ∈ d'.exchanges := by
  rw [C48_deletes_nothing data hc]
  exact ⟨d, hd, he⟩

/-- C48, what remains true: no input without a code is left if there was none before, or if it belonged to a dataset without
code. Conversely a dataset without code loses all its exchanges, linked or not. -/
theorem C48_partial (data : List Dataset) :
    List.Forall₂ (fun d d' => ((d.code = none ∨ d.code = some "") → d' = { d with exchanges := [] }) ∧
      (¬ (d.code = none ∨ d.code = some "") → d' = d)) data (logAndDeleteUnlinked data) := by
  unfold logAndDeleteUnlinked
  rw [List.forall₂_map_right_iff, List.forall₂_same]
  intro d _
  constructor
  · rintro (h | h) <;> simp [h]
  · intro h
    have : (d.code.getD "" != "") = true := by
      cases hd : d.code with
      | none => exact absurd (Or.inl hd) h
      | some c =>
        have : c ≠ "" := fun hc => h (Or.inr (by rw [hd, hc]))
        simpa using this
    simp [this]

example : ∃ d ∈ exampleLinked, ∃ e ∈ d.exchanges, NoCode e := by
  refine ⟨_, List.mem_cons_of_mem _ (List.mem_cons_self ..), _, List.mem_cons_of_mem _ (List.mem_cons_self ..), ?_⟩
  exact ⟨rfl, Or.inl rfl⟩
example : ∀ d ∈ exampleLinked, d.code.isSome ∧ d.code ≠ some "" := by decide +kernel

/-! ## C49 -/

theorem activityString_identity (lower : String → String) (d : Dataset) : activityString lower d = identity lower d := by
  unfold activityString identity
  simp [String.join, String.append_assoc]

theorem addCodesFrom_spec (hash : Dataset → String) (data : List Dataset) (seen : List String) :
    ((∀ d ∈ data, hash d ∉ seen) ∧ (data.map hash).Nodup →
      addCodesFrom hash seen data = .ok (data.map fun d => { d with code := some (hash d) })) ∧
    (¬ ((∀ d ∈ data, hash d ∉ seen) ∧ (data.map hash).Nodup) → addCodesFrom hash seen data = .error .identicalDatasets) := by
  induction data generalizing seen with
  | nil => simp [addCodesFrom]
  | cons d l ih =>
    obtain ⟨i1, i2⟩ := ih (hash d :: seen)
    unfold addCodesFrom
    by_cases hd : hash d ∈ seen
    · rw [if_pos hd]
      exact ⟨fun h => absurd hd (h.1 d (by simp)), fun _ => rfl⟩
    · rw [if_neg hd]
      by_cases hl : (∀ a ∈ l, hash a ∉ hash d :: seen) ∧ (l.map hash).Nodup
      · rw [i1 hl]
        refine ⟨fun _ => rfl, fun h => absurd ?_ h⟩
        refine ⟨?_, ?_⟩
        · intro a ha
          rcases List.mem_cons.mp ha with rfl | ha
          · exact hd
          · exact fun hs => hl.1 a ha (by simp [hs])
        · rw [List.map_cons, List.nodup_cons]
          refine ⟨?_, hl.2⟩
          intro hm
          obtain ⟨a, ha, hae⟩ := List.mem_map.mp hm
          exact hl.1 a ha (by simp [hae])
      · rw [i2 hl]
        refine ⟨fun h => absurd ?_ hl, fun _ => rfl⟩
        rw [List.map_cons, List.nodup_cons] at h
        refine ⟨?_, h.2.2⟩
        intro a ha hs
        rcases List.mem_cons.mp hs with hs | hs
        · exact h.2.1 (hs ▸ List.mem_map_of_mem ha)
        · exact h.1 a (by simp [ha]) hs

/-- C49: if the codes can be added, every dataset gets the hash of its identifying text, all codes are different, and nothing
else changes. -/
theorem C49_unique (lower md5 : String → String) (data out : List Dataset) (h : addUniqueCodes lower md5 data = .ok out) :
    out = data.map (fun d => { d with code := some (md5 (identity lower d)) }) ∧ (out.map (·.code)).Nodup := by
  obtain ⟨s1, s2⟩ := addCodesFrom_spec (activityHash lower md5) data []
  unfold addUniqueCodes at h
  by_cases hc : (∀ d ∈ data, activityHash lower md5 d ∉ ([] : List String)) ∧ (data.map (activityHash lower md5)).Nodup
  · rw [s1 hc] at h
    have h := Except.ok.inj h
    have hh : ∀ d, activityHash lower md5 d = md5 (identity lower d) := by
      intro d
      unfold activityHash
      rw [activityString_identity]
    simp only [hh] at h hc
    refine ⟨h.symm, ?_⟩
    rw [← h, List.map_map]
    have := hc.2.map (f := some) (Option.some_injective _)
    rw [List.map_map] at this
    exact this
  · rw [s2 hc] at h
    cases h

/-- C49: without hash collisions, `IdenticalDatasets` is raised exactly if two datasets have the same identifying text;
otherwise the function succeeds. -/
theorem C49_identical (lower md5 : String → String) (hmd5 : Function.Injective md5) (data : List Dataset) :
    ((data.map (identity lower)).Nodup → ∃ out, addUniqueCodes lower md5 data = .ok out) ∧
    (¬ (data.map (identity lower)).Nodup → addUniqueCodes lower md5 data = .error .identicalDatasets) := by
  obtain ⟨s1, s2⟩ := addCodesFrom_spec (activityHash lower md5) data []
  have hmap : data.map (activityHash lower md5) = (data.map (identity lower)).map md5 := by
    rw [List.map_map]
    apply List.map_congr_left
    intro d _
    unfold activityHash
    rw [activityString_identity]
    rfl
  rw [hmap, List.nodup_map_iff hmd5] at s1 s2
  constructor
  · intro h
    exact ⟨_, s1 ⟨by simp, h⟩⟩
  · intro h
    exact s2 fun hc => h hc.2

/-- C49, the last part under the only condition that makes it true: datasets whose identifying texts differ are accepted;
datasets that differ in the last attribute only do have different texts. -/
theorem C49_different_partial (lower md5 : String → String) (hmd5 : Function.Injective md5) (hl : Function.Injective lower)
    (a b : Dataset) (h1 : a.name = b.name) (h2 : a.refProduct = b.refProduct) (h3 : a.unit = b.unit) (h4 : a.location = b.location)
    (h5 : a.startDate = b.startDate) (h6 : a.endDate.getD "" ≠ b.endDate.getD "") :
    ∃ out, addUniqueCodes lower md5 [a, b] = .ok out := by
  refine (C49_identical lower md5 hmd5 [a, b]).1 ?_
  simp only [List.map_cons, List.map_nil, List.nodup_cons, List.mem_singleton, List.not_mem_nil, not_false_eq_true, List.nodup_nil,
    and_true]
  unfold identity
  rw [h1, h2, h3, h4, h5]
  intro h
  have h := congrArg String.toList h
  simp only [String.toList_append, List.append_cancel_left_eq] at h
  exact h6 (hl (String.toList_injective h))

/-- C49 fails for datasets that differ in two neighbouring attributes: the attributes are joined without separator, so for
instance activity `ab` with product `c` and activity `a` with product `bc` are rejected as identical. This happens for every way of
splitting a text, every hash and every `lower` that works letter by letter. -/
theorem C49_false_alarm (lower md5 : String → String) (hl : ∀ s t, lower (s ++ t) = lower s ++ lower t) (x y z : String) (d : Dataset) :
    addUniqueCodes lower md5 [{ d with name := x ++ y, refProduct := some z }, { d with name := x, refProduct := some (y ++ z) }] =
      .error .identicalDatasets := by
  obtain ⟨-, s2⟩ := addCodesFrom_spec (activityHash lower md5) [{ d with name := x ++ y, refProduct := some z }, { d with name := x, refProduct := some (y ++ z) }] []
  refine s2 ?_
  rintro ⟨-, h⟩
  simp only [List.map_cons, List.map_nil, List.nodup_cons, List.mem_singleton] at h
  refine h.1 ?_
  unfold activityHash
  rw [activityString_identity, activityString_identity]
  unfold identity
  simp [hl, String.append_assoc]

example : (addUniqueCodes id id exampleLinked).map (fun l => l.map (·.code)) = .ok [some "apGLO", some "bqGLO", some "crGLO"] := by decide +kernel

end Ocelot
