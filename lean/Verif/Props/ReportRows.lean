import Verif.Model.ReportRows
import Verif.Proofs.Utils
import Verif.Proofs.Dict
import Verif.Props.RestOfWorld
import Verif.Props.Allocation
import Verif.Props.Consequential
import Verif.Proofs.OrderLinks
import Verif.Props.Linking
import Verif.Props.Uncertainty

/-! # Property C127: the tables of the report list exactly what was changed -/

set_option linter.unusedSimpArgs false

namespace Ocelot
open Spec

/-! ## Specification -/

namespace Spec

/-- The same datasets with the same number of exchanges: at most the contents of exchanges differ. -/
def OnlyExchanges (before after : List Dataset) : Prop :=
  List.Forall₂ (fun a b : Dataset => b = { a with exchanges := b.exchanges } ∧ b.exchanges.length = a.exchanges.length) before after

/-- One row for every exchange that differs, in order. -/
def changedExchanges {ρ : Type} (row : Dataset → Exchange → Exchange → ρ) (before after : List Dataset) : List ρ :=
  (before.zip after).flatMap fun p => (p.1.exchanges.zip p.2.exchanges).filterMap fun q => if q.1 = q.2 then none else some (row p.1 q.1 q.2)

/-- One row for every dataset that differs, in order. -/
def changedDatasets {ρ : Type} (row : Dataset → Dataset → ρ) (before after : List Dataset) : List ρ :=
  (before.zip after).filterMap fun p => if p.1 = p.2 then none else some (row p.1 p.2)

/-- `removed` are the elements that are missing in `after`, in order. -/
inductive Without {α : Type} : List α → List α → List α → Prop
  | nil : Without [] [] []
  | kept {a : α} {before after removed : List α} : Without before after removed → Without (a :: before) (a :: after) removed
  | gone {a : α} {before after removed : List α} : Without before after removed → Without (a :: before) after (a :: removed)

/-- The call does the same as without the log, and what its log contributes to the report is as described. -/
def Logs {ρ β : Type} (call : Except Err (Log ρ × β)) (effect : Except Err β) (described : List ρ → β → Prop) : Prop :=
  call.map (·.2) = effect ∧ ∀ lg out, call = .ok (lg, out) → described lg.reported out

end Spec

/-! ## Loops that log -/

theorem reported_append {ρ : Type} (a b : Log ρ) : Log.reported (a ++ b) = a.reported ++ b.reported := by
  simp [Log.reported]

theorem reported_nil {ρ : Type} : Log.reported ([] : Log ρ) = [] := rfl

theorem reported_one {ρ : Type} (r : ρ) : Log.reported [(.ocelot, r)] = [r] := rfl

theorem reported_map {α ρ : Type} (f : α → ρ) (l : List α) : Log.reported (l.map fun a => (Channel.ocelot, f a)) = l.map f := by
  simp [Log.reported, List.filter_map, Function.comp_def]

theorem reported_root {ρ : Type} (l : List ρ) : Log.reported (l.map fun r => (Channel.root, r)) = [] := by
  induction l with
  | nil => rfl
  | cons a l ih => exact ih

theorem mapL_cons_ok {α β ρ : Type} {f : α → Except Err (Log ρ × β)} {a : α} {l : List α} {r : Log ρ × List β} (h : mapL f (a :: l) = .ok r) :
    ∃ x y, f a = .ok x ∧ mapL f l = .ok y ∧ r = (x.1 ++ y.1, x.2 :: y.2) := by
  simp only [mapL] at h
  obtain ⟨x, h1, h⟩ := bind_eq_ok.mp h
  obtain ⟨y, h2, h⟩ := bind_eq_ok.mp h
  exact ⟨x, y, h1, h2, (Except.ok.inj h).symm⟩

/-- The loop without the log. -/
theorem mapL_data {α β ρ : Type} {f : α → Except Err (Log ρ × β)} {g : α → Except Err β} (hfg : ∀ a, (f a).map (·.2) = g a) (l : List α) :
    (mapL f l).map (·.2) = mapE g l := by
  induction l with
  | nil => rfl
  | cons a l ih =>
    simp only [mapL, mapE, ← hfg a, ← ih]
    cases f a with
    | error e => rfl
    | ok x => cases mapL f l <;> rfl

theorem exchangesL_data {ρ : Type} {f : Exchange → Except Err (Log ρ × Exchange)} {g : Exchange → Except Err Exchange} (hfg : ∀ e, (f e).map (·.2) = g e)
    (ds : Dataset) : (exchangesL f ds).map (·.2) = mapExchangesE g ds := by
  have h := mapL_data hfg ds.exchanges
  unfold exchangesL mapExchangesE
  rw [← h]
  cases mapL f ds.exchanges <;> rfl

theorem map_snd_ok {ρ α : Type} {x : Except Err (Log ρ × α)} {y : Except Err α} (h : x.map (·.2) = y) {l : Log ρ} {a : α} (hx : x = .ok (l, a)) : y = .ok a := by
  rw [← h, hx]; rfl

/-- What is read off a log, row by row. -/
structure Reads {ρ τ : Type} (R : Log ρ → List τ) : Prop where
  nil : R [] = []
  append : ∀ a b, R (a ++ b) = R a ++ R b

theorem reads_all {ρ : Type} : Reads (fun lg : Log ρ => lg.map (·.2)) := ⟨rfl, fun _ _ => List.map_append⟩

theorem reads_reported {ρ : Type} : Reads (Log.reported (ρ := ρ)) := ⟨rfl, reported_append⟩

/-- Exchanges in a loop: rows are the differences. -/
theorem exchanges_rows {ρ τ : Type} {R : Log ρ → List τ} (hR : Reads R) {f : Exchange → Except Err (Log ρ × Exchange)} {row : Exchange → Exchange → τ}
    (hf : ∀ e lg e', f e = .ok (lg, e') → R lg = if e = e' then [] else [row e e']) {l : List Exchange} {lg : Log ρ} {l' : List Exchange}
    (h : mapL f l = .ok (lg, l')) :
    l'.length = l.length ∧ R lg = (l.zip l').filterMap fun q => if q.1 = q.2 then none else some (row q.1 q.2) := by
  induction l generalizing lg l' with
  | nil => cases h; exact ⟨rfl, hR.nil⟩
  | cons a l ih =>
    obtain ⟨x, y, h1, h2, h3⟩ := mapL_cons_ok h
    obtain ⟨rfl, rfl⟩ := Prod.mk.inj h3
    obtain ⟨i1, i2⟩ := ih (lg := y.1) (l' := y.2) h2
    refine ⟨by simp [i1], ?_⟩
    rw [hR.append, hf a x.1 x.2 h1, i2, List.zip_cons_cons, List.filterMap_cons]
    by_cases hc : a = x.2 <;> simp [hc]

/-- What one dataset has to satisfy. -/
def RowsOk {τ : Type} (row : Dataset → Exchange → Exchange → τ) (ds d' : Dataset) (rows : List τ) : Prop :=
  (d' = { ds with exchanges := d'.exchanges } ∧ d'.exchanges.length = ds.exchanges.length) ∧
    rows = (ds.exchanges.zip d'.exchanges).filterMap fun q => if q.1 = q.2 then none else some (row ds q.1 q.2)

/-- Datasets in a loop over the exchanges of each. -/
theorem rows_of_exchanges {ρ τ : Type} {R : Log ρ → List τ} (hR : Reads R) {F : Dataset → Except Err (Log ρ × Dataset)} {row : Dataset → Exchange → Exchange → τ}
    {data : List Dataset} (hF : ∀ ds ∈ data, ∀ lg d', F ds = .ok (lg, d') → RowsOk row ds d' (R lg))
    {lg : Log ρ} {out : List Dataset} (h : mapL F data = .ok (lg, out)) : OnlyExchanges data out ∧ R lg = changedExchanges row data out := by
  induction data generalizing lg out with
  | nil => cases h; exact ⟨.nil, hR.nil⟩
  | cons a l ih =>
    obtain ⟨x, y, h1, h2, h3⟩ := mapL_cons_ok h
    obtain ⟨rfl, rfl⟩ := Prod.mk.inj h3
    obtain ⟨i1, i2⟩ := ih (fun ds hds => hF ds (List.mem_cons_of_mem _ hds)) (lg := y.1) (out := y.2) h2
    obtain ⟨j1, j2⟩ := hF a List.mem_cons_self x.1 x.2 h1
    refine ⟨.cons j1 i1, ?_⟩
    rw [hR.append, j2, i2]
    rfl

/-- The unchanged dataset. -/
theorem rows_none {τ : Type} (row : Dataset → Exchange → Exchange → τ) (ds : Dataset) : RowsOk row ds ds [] := by
  refine ⟨⟨rfl, rfl⟩, ?_⟩
  rw [eq_comm, List.filterMap_eq_nil_iff]
  intro q hq
  have h : ∀ (l : List Exchange), q ∈ l.zip l → q.1 = q.2 := by
    intro l
    induction l with
    | nil => simp
    | cons a l ih =>
      intro h
      rcases List.mem_cons.mp h with h | h
      · rw [h]
      · exact ih h
  rw [if_pos (h _ hq)]

/-- One dataset with a loop over its exchanges. -/
theorem rows_of_loop {ρ τ : Type} {R : Log ρ → List τ} (hR : Reads R) {f : Exchange → Except Err (Log ρ × Exchange)} {row : Dataset → Exchange → Exchange → τ}
    {ds : Dataset} (hf : ∀ e lg e', f e = .ok (lg, e') → R lg = if e = e' then [] else [row ds e e']) {lg : Log ρ} {d' : Dataset}
    (h : exchangesL f ds = .ok (lg, d')) : RowsOk row ds d' (R lg) := by
  unfold exchangesL at h
  obtain ⟨r, h1, h2⟩ := bind_eq_ok.mp h
  obtain ⟨rfl, rfl⟩ := Prod.mk.inj (Except.ok.inj h2)
  obtain ⟨i1, i2⟩ := exchanges_rows hR hf (lg := r.1) (l' := r.2) h1
  exact ⟨⟨rfl, i1⟩, i2⟩

/-- Datasets in a loop, compared as a whole. -/
theorem rows_of_datasets {ρ τ : Type} {R : Log ρ → List τ} (hR : Reads R) {F : Dataset → Except Err (Log ρ × Dataset)} {row : Dataset → Dataset → τ}
    (hF : ∀ ds lg d', F ds = .ok (lg, d') → R lg = if ds = d' then [] else [row ds d']) {data : List Dataset}
    {lg : Log ρ} {out : List Dataset} (h : mapL F data = .ok (lg, out)) : out.length = data.length ∧ R lg = changedDatasets row data out := by
  induction data generalizing lg out with
  | nil => cases h; exact ⟨rfl, hR.nil⟩
  | cons a l ih =>
    obtain ⟨x, y, h1, h2, h3⟩ := mapL_cons_ok h
    obtain ⟨rfl, rfl⟩ := Prod.mk.inj h3
    obtain ⟨i1, i2⟩ := ih (lg := y.1) (out := y.2) h2
    refine ⟨by simp [i1], ?_⟩
    rw [hR.append, hF a x.1 x.2 h1, i2]
    unfold changedDatasets
    rw [List.zip_cons_cons, List.filterMap_cons]
    by_cases hc : a = x.2 <;> simp [hc]

/-- Datasets in a loop, some of which are listed without having changed. -/
theorem rows_of_listed {ρ : Type} {F : Dataset → Except Err (Log ρ × Dataset)} {row : Dataset → ρ} {c : Dataset → Bool}
    (hF : ∀ ds lg d', F ds = .ok (lg, d') → (lg.reported = if c ds then [row ds] else []) ∧ (c ds = false → d' = ds)) {data : List Dataset}
    {lg : Log ρ} {out : List Dataset} (h : mapL F data = .ok (lg, out)) :
    out.length = data.length ∧ lg.reported = (data.filter c).map row ∧ (changedDatasets (fun a _ => row a) data out).Sublist lg.reported := by
  induction data generalizing lg out with
  | nil => cases h; exact ⟨rfl, rfl, .slnil⟩
  | cons a l ih =>
    obtain ⟨x, y, h1, h2, h3⟩ := mapL_cons_ok h
    obtain ⟨rfl, rfl⟩ := Prod.mk.inj h3
    obtain ⟨i1, i2, i3⟩ := ih (lg := y.1) (out := y.2) h2
    obtain ⟨j1, j2⟩ := hF a x.1 x.2 h1
    refine ⟨by simp [i1], ?_, ?_⟩
    · rw [reported_append, j1, i2, List.filter_cons]
      cases c a <;> rfl
    · unfold changedDatasets at i3 ⊢
      rw [reported_append, j1, List.zip_cons_cons, List.filterMap_cons]
      by_cases hc : a = x.2
      · simp only [if_pos hc]
        exact i3.trans (List.sublist_append_right _ _)
      · have : c a = true := by
          by_contra hn
          exact hc (j2 (by simpa using hn)).symm
        simp only [if_neg hc, this, if_true]
        exact i3.cons_cons _

theorem without_filter {α : Type} (p : α → Bool) (l : List α) : Without l (l.filter fun a => !p a) (l.filter p) := by
  induction l with
  | nil => exact .nil
  | cons a l ih => cases h : p a <;> simp only [List.filter_cons, h] <;> simp only [Bool.not_false, Bool.not_true, if_true, Bool.false_eq_true, if_false]
                   · exact .kept ih
                   · exact .gone ih

theorem truthy_some {o : Option String} (h : truthy o = true) : o ≠ none := by rintro rfl; simp [truthy] at h

/-! ## C127: changed exchanges -/

theorem mapE_exchanges (f : Exchange → Exchange) (data : List Dataset) :
    mapE (mapExchangesE fun e => .ok (f e)) data = .ok (data.map fun ds => { ds with exchanges := ds.exchanges.map f }) := by
  unfold mapExchangesE
  simp only [mapE_pure, ebind_ok, epure]

/-- **C127**, `drop_zero_amount_activity_links`: the table has one row for every exchange that lost its link, and no other; nothing else is changed. -/
theorem C127_zero_links (data : List Dataset) :
    Logs (dropZeroLinksL data) (.ok (dropZeroAmountActivityLinks data)) fun rows out =>
      OnlyExchanges data out ∧ rows = changedExchanges (fun ds e _ => (ds.name, e.name)) data out := by
  constructor
  · rw [dropZeroAmountActivityLinks, ← mapE_exchanges]
    refine mapL_data (fun ds => exchangesL_data (fun e => ?_) ds) data
    unfold dropZeroLink
    split <;> rfl
  · intro lg out h
    refine rows_of_exchanges reads_reported (fun ds _ lg d' h => rows_of_loop reads_reported (fun e lg e' he => ?_) h) h
    by_cases hc : e.amount = 0 ∧ truthy e.activityLink = true
    · rw [if_pos hc] at he
      obtain ⟨rfl, rfl⟩ := Prod.mk.inj (Except.ok.inj he)
      rw [if_neg (fun h => truthy_some hc.2 (congrArg (·.activityLink) h))]
      rfl
    · rw [if_neg hc] at he
      obtain ⟨rfl, rfl⟩ := Prod.mk.inj (Except.ok.inj he)
      rw [if_pos rfl]; rfl

/-- **C127**, `drop_rp_activity_links`: likewise. -/
theorem C127_product_links (data : List Dataset) :
    Logs (dropRpLinksL data) (.ok (dropRpActivityLinks data)) fun rows out =>
      OnlyExchanges data out ∧ rows = changedExchanges (fun ds e _ => (ds.name, e.name)) data out := by
  constructor
  · rw [dropRpActivityLinks, ← mapE_exchanges]
    refine mapL_data (fun ds => exchangesL_data (fun e => ?_) ds) data
    unfold dropRpLink
    split <;> rfl
  · intro lg out h
    refine rows_of_exchanges reads_reported (fun ds _ lg d' h => rows_of_loop reads_reported (fun e lg e' he => ?_) h) h
    by_cases hc : (e.type = .referenceProduct ∨ e.type = .droppedProduct) ∧ truthy e.activityLink = true
    · rw [if_pos hc] at he
      obtain ⟨rfl, rfl⟩ := Prod.mk.inj (Except.ok.inj he)
      rw [if_neg (fun h => truthy_some hc.2 (congrArg (·.activityLink) h))]
      rfl
    · rw [if_neg hc] at he
      obtain ⟨rfl, rfl⟩ := Prod.mk.inj (Except.ok.inj he)
      rw [if_pos rfl]; rfl

/-- **C127**, `update_activity_link_parent_child`: one row for every exchange whose link was redirected (a dataset that is its own parent would get rows without a change). -/
theorem C127_redirected (data : List Dataset) (hp : ∀ ds ∈ data, ds.parent ≠ some ds.id) :
    Logs (updateParentChildL data) (updateActivityLinkParentChild data) fun rows out =>
      OnlyExchanges data out ∧ rows = changedExchanges (fun ds e _ => (ds.name, ds.location, e.amount)) data out := by
  constructor
  · unfold updateParentChildL updateActivityLinkParentChild
    refine mapL_data (fun ds => ?_) data
    unfold updateParentChild
    cases hpar : ds.parent with
    | none => rfl
    | some p =>
      simp only
      by_cases hpe : p = ""
      · rw [if_pos hpe, if_pos hpe]; rfl
      · rw [if_neg hpe, if_neg hpe]
        refine (exchangesL_data (g := redirectToChild p ds.id) (fun e => ?_) ds).trans (by simp only [mapExchangesE, hpar])
        unfold redirectL redirectToChild
        cases isAllocatable e with
        | error x => rfl
        | ok b => cases b <;> simp only [ebind_ok, Bool.false_eq_true, if_true, if_false] <;> [split <;> rfl; rfl]
  · intro lg out h
    refine rows_of_exchanges reads_reported (fun ds hds lg d' h => ?_) h
    have hid := hp ds hds
    cases hpar : ds.parent with
    | none =>
      rw [hpar] at h
      obtain ⟨rfl, rfl⟩ := Prod.mk.inj (Except.ok.inj h)
      exact rows_none _ ds
    | some p =>
      rw [hpar] at h
      simp only at h
      by_cases hpe : p = ""
      · rw [if_pos hpe] at h
        obtain ⟨rfl, rfl⟩ := Prod.mk.inj (Except.ok.inj h)
        exact rows_none _ ds
      · rw [if_neg hpe] at h
        refine rows_of_loop reads_reported (fun e lg e' he => ?_) h
        unfold redirectL at he
        obtain ⟨b, -, he⟩ := bind_eq_ok.mp he
        cases b
        · simp only [Bool.false_eq_true, if_false] at he
          by_cases hl : e.activityLink = some p
          · rw [if_pos hl] at he
            obtain ⟨rfl, rfl⟩ := Prod.mk.inj (Except.ok.inj he)
            rw [if_neg]
            · rfl
            · intro hh
              have := congrArg (·.activityLink) hh
              simp only [hl] at this
              rw [hpar] at hid
              exact hid this
          · rw [if_neg hl] at he
            obtain ⟨rfl, rfl⟩ := Prod.mk.inj (Except.ok.inj he)
            rw [if_pos rfl]; rfl
        · simp only [if_true] at he
          obtain ⟨rfl, rfl⟩ := Prod.mk.inj (Except.ok.inj he)
          rw [if_pos rfl]; rfl

/-- **C127**, `add_pv_to_allocatable_byproducts`: the rows with a volume other than zero are exactly the exchanges whose volume was filled in, with the new volume. -/
theorem C127_volumes (data : List Dataset) :
    Logs (addPvL data) (addPvToAllocatableByproducts data) fun rows out =>
      OnlyExchanges data out ∧
      rows.filter (fun r => r.2.2 != 0) = changedExchanges (fun ds e e' => (ds.name, e.name, (e'.pv.map (·.amount)).getD 0)) data out := by
  constructor
  · unfold addPvL addPvToAllocatableByproducts
    refine mapL_data (fun ds => ?_) data
    unfold fillVolumes
    cases anyAllocatableByproduct ds.exchanges with
    | error x => rfl
    | ok b =>
      cases b
      · rfl
      · simp only [ebind_ok, if_true]
        cases getBiggestPvRatio ds with
        | error x => rfl
        | ok scale =>
          simp only [ebind_ok]
          refine exchangesL_data (g := fillByproduct scale) (fun e => ?_) ds
          unfold fillVolumeL fillByproduct fillVolume
          cases isAllocatableByproduct e with
          | error x => rfl
          | ok b =>
            cases b
            · rfl
            · simp only [ebind_ok, if_true]
              cases e.pv with
              | none => rfl
              | some pv =>
                simp only [getKey_some, ebind_ok]
                split <;> rfl
  · intro lg out h
    have hR : Reads (fun l : Log (String × String × ℚ) => l.reported.filter fun r => r.2.2 != 0) := ⟨rfl, fun a b => by simp [reported_append]⟩
    refine rows_of_exchanges hR (fun ds hds lg d' h => ?_) h
    obtain ⟨b, -, h⟩ := bind_eq_ok.mp h
    cases b
    · obtain ⟨rfl, rfl⟩ := Prod.mk.inj (Except.ok.inj h)
      exact rows_none _ ds
    · simp only [if_true] at h
      obtain ⟨scale, -, h⟩ := bind_eq_ok.mp h
      refine rows_of_loop hR (fun e lg e' he => ?_) h
      unfold fillVolumeL at he
      obtain ⟨b, -, he⟩ := bind_eq_ok.mp he
      cases b
      · obtain ⟨rfl, rfl⟩ := Prod.mk.inj (Except.ok.inj he)
        rw [if_pos rfl]; rfl
      · simp only [if_true] at he
        obtain ⟨pv, hpv, he⟩ := bind_eq_ok.mp he
        rw [getKey_eq_ok] at hpv
        by_cases h0 : pv.amount = 0
        · rw [if_pos h0] at he
          obtain ⟨rfl, rfl⟩ := Prod.mk.inj (Except.ok.inj he)
          by_cases hz : |e.amount * scale| = 0
          · rw [if_pos]
            · simp only [reported_one, List.filter_cons, hz]; rfl
            · rw [hz]
              have : ({ pv with amount := 0 } : PV) = pv := by rw [← h0]
              rw [this, ← hpv]
          · rw [if_neg]
            · simp only [reported_one, List.filter_cons, bne_iff_ne, ne_eq, hz, not_false_eq_true, if_true]
              rfl
            · intro hh
              have := congrArg (fun x : Exchange => x.pv.map (·.amount)) hh
              simp only [hpv, Option.map_some, Option.some.injEq] at this
              exact hz (this.symm.trans h0)
        · rw [if_neg h0] at he
          obtain ⟨rfl, rfl⟩ := Prod.mk.inj (Except.ok.inj he)
          rw [if_pos rfl]; rfl

/-- **C127**, `flip_non_allocatable_byproducts`: one row for every exchange that was turned into an input, with its former classification. -/
theorem C127_flipped (data : List Dataset) :
    Logs (flipNonAllocatableL data) (flipNonAllocatableByproducts data) fun rows out =>
      OnlyExchanges data out ∧ rows.map (fun r => (r.1, r.2.1, some r.2.2)) = changedExchanges (fun ds e _ => (ds.name, e.name, e.cls)) data out := by
  constructor
  · unfold flipNonAllocatableL flipNonAllocatableByproducts
    refine mapL_data (fun ds => exchangesL_data (fun e => ?_) ds) data
    unfold flipL flipExchange
    split
    · split <;> simp_all [Except.map]
    · rfl
  · intro lg out h
    have hR : Reads (fun l : Log (String × String × Cls) => l.reported.map fun r => (r.1, r.2.1, some r.2.2)) := ⟨rfl, fun a b => by simp [reported_append]⟩
    refine rows_of_exchanges hR (fun ds hds lg d' h => rows_of_loop hR (fun e lg e' he => ?_) h) h
    unfold flipL at he
    by_cases ht : e.type = .byproduct
    · rw [if_pos ht] at he
      split at he
      · cases he
      · obtain ⟨rfl, rfl⟩ := Prod.mk.inj (Except.ok.inj he)
        rw [if_pos rfl]; rfl
      · rename_i c _ hcl
        obtain ⟨rfl, rfl⟩ := Prod.mk.inj (Except.ok.inj he)
        rw [if_neg]
        · rw [reported_one, hcl]; rfl
        · intro hh
          have := congrArg (·.type) hh
          simp only [ht] at this
          cases this
    · rw [if_neg ht] at he
      obtain ⟨rfl, rfl⟩ := Prod.mk.inj (Except.ok.inj he)
      rw [if_pos rfl]; rfl

/-! ## C127: removed exchanges and datasets -/

/-- A loop that logs, dataset by dataset. -/
theorem mapL_rows {ρ : Type} {F : Dataset → Except Err (Log ρ × Dataset)} {G : Dataset → Dataset → List ρ}
    (hF : ∀ a lg b, F a = .ok (lg, b) → lg.reported = G a b) {data : List Dataset} {lg : Log ρ} {out : List Dataset} (h : mapL F data = .ok (lg, out)) :
    lg.reported = (data.zip out).flatMap fun p => G p.1 p.2 := by
  induction data generalizing lg out with
  | nil => cases h; rfl
  | cons a l ih =>
    obtain ⟨x, y, h1, h2, h3⟩ := mapL_cons_ok h
    obtain ⟨rfl, rfl⟩ := Prod.mk.inj h3
    rw [reported_append, hF a x.1 x.2 h1, ih (lg := y.1) (out := y.2) h2]
    rfl

/-- A loop that logs, where the result is known. -/
theorem mapL_pure {α β ρ : Type} (f : α → Log ρ) (g : α → β) (l : List α) : mapL (fun a => .ok (f a, g a)) l = .ok (l.flatMap f, l.map g) := by
  induction l with
  | nil => rfl
  | cons a l ih => simp only [mapL, ebind_ok, ih, epure, List.flatMap_cons, List.map_cons]

theorem reported_flatMap {α ρ : Type} (f : α → Log ρ) (l : List α) : Log.reported (l.flatMap f) = l.flatMap fun a => (f a).reported := by
  induction l with
  | nil => rfl
  | cons a l ih => rw [List.flatMap_cons, reported_append, ih]; rfl

/-- **C127**, `remove_consequential_exchanges`: one row for every exchange that was removed, and no other. -/
theorem C127_removed (data : List Dataset) :
    Logs (removeConsequentialL data) (.ok (removeConsequentialExchanges data)) fun rows out =>
      ∃ gone : List (List Exchange), List.Forall₂ (fun (p : Dataset × List Exchange) (d' : Dataset) => d' = { p.1 with exchanges := d'.exchanges } ∧
          Without p.1.exchanges d'.exchanges p.2) (data.zip gone) out ∧ gone.length = data.length ∧
        rows = (data.zip gone).flatMap fun p => p.2.map fun e => (p.1.name, e.name, e.amount) := by
  constructor
  · unfold removeConsequentialL
    rw [mapL_pure]; rfl
  · intro lg out h
    unfold removeConsequentialL at h
    rw [mapL_pure] at h
    obtain ⟨rfl, rfl⟩ := Prod.mk.inj (Except.ok.inj h)
    refine ⟨data.map fun ds => ds.exchanges.filter hasConsequentialProperty, ?_, by simp, ?_⟩
    · clear h
      induction data with
      | nil => exact .nil
      | cons a l ih => exact .cons ⟨rfl, without_filter _ _⟩ ih
    · rw [reported_flatMap]
      clear h
      induction data with
      | nil => rfl
      | cons a l ih =>
        rw [List.flatMap_cons, ih, reported_map]
        rfl

/-- **C127**, `delete_whitelisted_zero_pv_market_datsets`: one row for every dataset that was deleted, and no other. -/
theorem C127_deleted (data : List Dataset) :
    Logs (deleteWhitelistedL data) (deleteWhitelistedMarkets data) fun rows out =>
      ∃ removed, Without data out removed ∧ rows.map (fun r => (r.1, some r.2)) = removed.map fun d => (d.name, d.refProduct) := by
  constructor
  · unfold deleteWhitelistedL deleteWhitelistedMarkets
    cases mapE withRefProduct (data.filter isWhitelisted) <;> rfl
  · intro lg out h
    unfold deleteWhitelistedL at h
    obtain ⟨l, hl, h⟩ := bind_eq_ok.mp h
    obtain ⟨rfl, rfl⟩ := Prod.mk.inj (Except.ok.inj h)
    refine ⟨data.filter isWhitelisted, without_filter _ _, ?_⟩
    rw [reported_map, List.map_map]
    refine mapE_map_eq hl fun a _ b hab => ?_
    unfold withRefProduct at hab
    obtain ⟨r, hr, hab⟩ := bind_eq_ok.mp hab
    rw [← Except.ok.inj hab]
    simp [getKey_eq_ok.mp hr]

theorem purged_of_group {g : List Dataset} {row : Dataset} (h : purgedOf g = some row) : row ∈ g := by
  unfold purgedOf at h
  split at h
  · cases h
  · split at h
    · cases h
    · rename_i r hr
      split at h
      · rw [← Option.some.inj h]; exact List.mem_of_find?_eq_some hr
      · cases h

/-- **C127**, `delete_global_with_zero_pv_when_regional_present`: one row for every dataset that was deleted, and no other, up to the order of the rows. (Two equal datasets would
share a row.) -/
theorem C127_purged (kind : DsType) (data : List Dataset) (hn : data.Nodup) :
    Logs (deleteGlobalL kind data) (deleteGlobalZeroPv kind data) fun rows out =>
      ∃ removed, Without data out removed ∧ (rows.map fun r => (r.1, some r.2.1, r.2.2)).Perm (removed.map fun d => (d.name, d.refProduct, d.location)) := by
  constructor
  · unfold deleteGlobalL deleteGlobalZeroPv
    cases mapE withRefProduct (data.filter fun ds => ds.type == kind) with
    | error e => rfl
    | ok l =>
      simp only [ebind_ok, epure, Except.map, List.map_filterMap, List.filterMap_map]
      congr 2
      funext ds
      congr 3
      funext g
      simp only [Function.comp]
      cases purgedOf (g.2.map (·.2)) <;> rfl
  · intro lg out h
    unfold deleteGlobalL at h
    obtain ⟨l, hl, h⟩ := bind_eq_ok.mp h
    obtain ⟨rfl, rfl⟩ := Prod.mk.inj (Except.ok.inj h)
    have hlab : ∀ p ∈ l, p.2 ∈ data ∧ p.2.refProduct = some p.1 := by
      intro p hp
      obtain ⟨d, hd, hdp⟩ := mapE_mem hl hp
      unfold withRefProduct at hdp
      obtain ⟨r, hr, hdp⟩ := bind_eq_ok.mp hdp
      rw [← Except.ok.inj hdp]
      exact ⟨(List.mem_filter.mp hd).1, getKey_eq_ok.mp hr⟩
    set purge := (groupBy (·.1) l).filterMap fun g => (purgedOf (g.2.map (·.2))).map fun row => (g.1, row) with hpurge
    have hmem : ∀ p ∈ purge, p.2 ∈ data ∧ p.2.refProduct = some p.1 := by
      intro p hp
      obtain ⟨g, hg, hgp⟩ := List.mem_filterMap.mp hp
      obtain ⟨row, hrow, rfl⟩ := Option.map_eq_some_iff.mp hgp
      obtain ⟨q, hq, rfl⟩ := List.mem_map.mp (purged_of_group hrow)
      rw [groupBy_mem hg] at hq
      obtain ⟨hq1, hq2⟩ := List.mem_filter.mp hq
      have := hlab q hq1
      rw [of_decide_eq_true hq2] at this
      exact this
    have hkeys : (purge.map (·.1)).Nodup := by
      refine List.Nodup.sublist ?_ (groupBy_nodup (fun p : String × Dataset => p.1) l)
      rw [hpurge]
      generalize groupBy (fun p : String × Dataset => p.1) l = gs
      induction gs with
      | nil => exact .slnil
      | cons g gs ih =>
        rw [List.filterMap_cons]
        cases purgedOf (g.2.map (·.2)) with
        | none => exact ih.cons _
        | some row => exact ih.cons_cons _
    have hrows : (purge.map (·.2)).Nodup := by
      refine List.Nodup.of_map (f := fun d : Dataset => d.refProduct) ?_
      have : (purge.map (·.2)).map (fun d : Dataset => d.refProduct) = (purge.map (·.1)).map some := by
        rw [List.map_map, List.map_map]
        exact List.map_congr_left fun p hp => (hmem p hp).2
      rw [this]
      exact hkeys.map (Option.some_injective _)
    refine ⟨data.filter fun ds => (purge.map (·.2)).contains ds, without_filter _ _, ?_⟩
    rw [reported_map, List.map_map]
    have e1 : purge.map ((fun r : String × String × String => (r.1, some r.2.1, r.2.2)) ∘ fun p => (p.2.name, p.1, p.2.location)) =
        (purge.map (·.2)).map fun d => (d.name, d.refProduct, d.location) := by
      rw [List.map_map]
      exact List.map_congr_left fun p hp => by simp [(hmem p hp).2]
    rw [e1]
    refine List.Perm.map _ ?_
    rw [List.perm_ext_iff_of_nodup hrows (hn.filter _)]
    intro d
    rw [List.mem_filter, List.contains_iff_mem]
    constructor
    · intro hd
      obtain ⟨p, hp, rfl⟩ := List.mem_map.mp hd
      exact ⟨(hmem p hp).1, hd⟩
    · exact fun hd => hd.2

/-! ## C127: renamed and created -/

theorem removeSub_le (sub : List Char) : ∀ (n : ℕ) (l : List Char), (removeSub sub n l).length ≤ l.length
  | 0, l => by simp [removeSub]
  | n + 1, [] => by simp [removeSub]
  | n + 1, c :: l => by
    rw [removeSub]
    split
    · refine (removeSub_le sub n _).trans ?_
      simp
    · have := removeSub_le sub n l
      simpa using this

theorem removeSub_lt {sub : List Char} (hs : sub ≠ []) : ∀ (n : ℕ) (l : List Char), l.length ≤ n → sub <:+ l → (removeSub sub n l).length < l.length
  | n, [], _, h => absurd (List.suffix_nil.mp h) hs
  | 0, c :: l, hn, _ => by simp at hn
  | n + 1, c :: l, hn, h => by
    rw [removeSub]
    by_cases hp : sub.isPrefixOf (c :: l) = true
    · rw [if_pos hp]
      refine (removeSub_le sub n _).trans_lt ?_
      rw [List.length_drop]
      have : 0 < sub.length := List.length_pos_iff.mpr hs
      simp only [List.length_cons]
      omega
    · rw [if_neg hp]
      have hl : sub <:+ l := by
        rcases List.suffix_cons_iff.mp h with h | h
        · exact absurd (by rw [h]; exact List.isPrefixOf_iff_prefix.mpr (List.prefix_refl _)) hp
        · exact h
      have := removeSub_lt hs n l (by simpa using hn) hl
      simpa using this

theorem stripRc_ne {s : String} (h : hasRc s = true) : stripRc s ≠ s := by
  unfold hasRc at h
  unfold stripRc
  rw [if_pos h]
  intro hh
  have := congrArg String.toList hh
  rw [String.toList_ofList] at this
  have hlt := removeSub_lt (sub := rcString.toList) (by decide) s.toList.length s.toList le_rfl (List.isSuffixOf_iff_suffix.mp h)
  rw [this] at hlt
  exact lt_irrefl _ hlt

theorem stripRc_not {s : String} (h : hasRc s = false) : stripRc s = s := by
  unfold hasRc at h
  unfold stripRc
  rw [h]; rfl

/-- **C127**, `rename_recycled_content_products_after_linking`: for every dataset the exchanges that were renamed, with their new names, and then its label, if it was renamed. -/
theorem C127_renamed (data : List Dataset) :
    Logs (renameAfterLinkingL data) (.ok (renameRecycledContentAfterLinking data)) fun rows out =>
      rows = (data.zip out).flatMap fun p =>
        ((p.1.exchanges.zip p.2.exchanges).filterMap fun q => if q.1 = q.2 then none else some (p.1.name, q.2.name, .exchange q.1.type, p.1.location)) ++
        if p.1.refProduct = p.2.refProduct then [] else [(p.1.name, p.2.refProduct.getD "", .label, p.1.location)] := by
  constructor
  · unfold renameRecycledContentAfterLinking
    rw [← mapE_pure]
    refine mapL_data (fun ds => ?_) data
    have h1 := exchangesL_data (ρ := String × String × Renamed × String) (f := renameL ds) (g := fun e => .ok { e with name := stripRc e.name }) (fun e => by
      unfold renameL
      cases hc : hasRc e.name
      · rw [stripRc_not hc]; rfl
      · rfl) ds
    have h2 : mapExchangesE (fun e => .ok { e with name := stripRc e.name }) ds = .ok { ds with exchanges := ds.exchanges.map fun e => { e with name := stripRc e.name } } := by
      unfold mapExchangesE
      simp only [mapE_pure, ebind_ok, epure]
    rw [h2] at h1
    cases hx : exchangesL (renameL ds) ds with
    | error e => rw [hx] at h1; cases h1
    | ok r =>
      rw [hx] at h1
      have h3 := Except.ok.inj h1
      simp only [ebind_ok, epure, Except.map]
      simp only at h3
      rw [h3]
      have h4 : (renameLabelL ds).2 = ds.refProduct.map stripRc := by
        unfold renameLabelL
        cases hr : ds.refProduct with
        | none =>
          have : hasRc ((none : Option String).getD "") = false := by decide
          rw [this]; rfl
        | some r =>
          simp only [Option.getD_some]
          cases hc : hasRc r
          · simp [stripRc_not hc]
          · simp
      rw [h4]
  · intro lg out h
    refine mapL_rows (G := fun a b => ((a.exchanges.zip b.exchanges).filterMap fun q => if q.1 = q.2 then none else some (a.name, q.2.name, .exchange q.1.type, a.location)) ++
        if a.refProduct = b.refProduct then [] else [(a.name, b.refProduct.getD "", .label, a.location)]) (fun ds lg d' h => ?_) h
    obtain ⟨r, h1, h2⟩ := bind_eq_ok.mp h
    obtain ⟨rfl, rfl⟩ := Prod.mk.inj (Except.ok.inj h2)
    have hex := rows_of_loop reads_reported (row := fun ds e e' => (ds.name, e'.name, Renamed.exchange e.type, ds.location)) (lg := r.1) (d' := r.2) (fun e lg e' he => by
      unfold renameL at he
      cases hc : hasRc e.name
      · rw [hc] at he
        obtain ⟨rfl, rfl⟩ := Prod.mk.inj (Except.ok.inj he)
        rw [if_pos rfl]; rfl
      · rw [hc] at he
        obtain ⟨rfl, rfl⟩ := Prod.mk.inj (Except.ok.inj he)
        rw [if_neg (fun h => stripRc_ne hc (congrArg (·.name) h).symm)]
        rfl) h1
    rw [reported_append, hex.2]
    congr 1
    unfold renameLabelL
    cases hr : ds.refProduct with
    | none =>
      have : hasRc ((none : Option String).getD "") = false := by decide
      rw [this]; rfl
    | some s =>
      simp only [Option.getD_some]
      cases hc : hasRc s
      · simp [Log.reported]
      · simp only [if_true, Option.some.injEq, Option.getD_some]
        rw [if_neg (fun h => stripRc_ne hc h.symm)]
        rfl

/-- **C127**, `create_recycled_content_datasets`: the table has the names of the new datasets, which are added at the end. -/
theorem C127_created (data : List Dataset) :
    Logs (createRecycledL data) (createRecycledContentDatasets data) fun rows out => ∃ new, out = data ++ new ∧ rows = new.map (·.name) := by
  constructor
  · unfold createRecycledL createRecycledContentDatasets
    cases recycledContentCandidates data <;> rfl
  · intro lg out h
    unfold createRecycledL at h
    obtain ⟨c, -, h⟩ := bind_eq_ok.mp h
    obtain ⟨rfl, rfl⟩ := Prod.mk.inj (Except.ok.inj h)
    refine ⟨_, rfl, ?_⟩
    rw [reported_map, List.map_map]
    refine List.map_congr_left fun p hp => ?_
    obtain ⟨a, -, h1, h2⟩ := dictOf_mem_src (k := p.1) (v := p.2) hp
    simp only [Function.comp, ← h1, ← h2]

/-! ## C127: changed datasets -/

namespace Spec

/-- A market for something other than waste that has no positive amount, or a negative product. -/
def negativeMarket (ds : Dataset) : Bool :=
  ds.type == .market && (refs ds).any fun rp => rp.cls != some .waste && (ds.exchanges.all (fun e => decide (e.amount ≤ 0)) || decide (rp.amount < 0))

end Spec

/-- **C127**, `adjust_market_signs_for_allocatable_products`: the table lists the markets for something other than waste whose amounts are all at most zero or whose product is
negative; every dataset that was changed is among them. -/
theorem C127_signs (M : MathEnv) (data : List Dataset) :
    Logs (adjustMarketSignsL M data) (adjustMarketSignsAll M data) fun rows out =>
      out.length = data.length ∧ rows = (data.filter negativeMarket).map (fun ds => (ds.name, ds.location)) ∧
      (changedDatasets (fun a _ => (a.name, a.location)) data out).Sublist rows := by
  constructor
  · unfold adjustMarketSignsL adjustMarketSignsAll
    refine mapL_data (fun ds => ?_) data
    unfold adjustSignsL adjustMarketSigns
    split
    · cases getSingleReferenceProduct ds with
      | error e => rfl
      | ok rp =>
        simp only [ebind_ok]
        cases getKey rp.cls with
        | error e => rfl
        | ok c =>
          simp only [ebind_ok]
          split
          · cases mapE (fun e => scaleExchange M e (-1)) ds.exchanges <;> rfl
          · split
            · cases mapE (fun e => if e.name = rp.name then scaleExchange M e (-1) else .ok e) ds.exchanges <;> rfl
            · rfl
    · rfl
  · intro lg out h
    refine rows_of_listed (c := negativeMarket) (row := fun ds => (ds.name, ds.location)) (fun ds lg d' hd => ?_) h
    unfold adjustSignsL at hd
    by_cases ht : ds.type = .market
    · rw [if_pos ht] at hd
      obtain ⟨rp, hrp, hd⟩ := bind_eq_ok.mp hd
      obtain ⟨c, hc, hd⟩ := bind_eq_ok.mp hd
      have hcond : negativeMarket ds = (decide (c ≠ .waste) && (ds.exchanges.all (fun e => decide (e.amount ≤ 0)) || decide (rp.amount < 0))) := by
        unfold negativeMarket
        rw [getSingle_ok.mp hrp, ht]
        simp only [List.any_cons, List.any_nil, Bool.or_false, getKey_eq_ok.mp hc, beq_self_eq_true, Bool.true_and]
        congr 1
        cases c <;> rfl
      by_cases h1 : c ≠ .waste ∧ ds.exchanges.all (fun e => decide (e.amount ≤ 0)) = true
      · rw [if_pos h1] at hd
        obtain ⟨ex, -, hd⟩ := bind_eq_ok.mp hd
        obtain ⟨rfl, rfl⟩ := Prod.mk.inj (Except.ok.inj hd)
        have : negativeMarket ds = true := by rw [hcond, h1.2]; simpa using h1.1
        rw [this]
        exact ⟨rfl, fun h => by cases h⟩
      · rw [if_neg h1] at hd
        by_cases h2 : c ≠ .waste ∧ rp.amount < 0
        · rw [if_pos h2] at hd
          obtain ⟨ex, -, hd⟩ := bind_eq_ok.mp hd
          obtain ⟨rfl, rfl⟩ := Prod.mk.inj (Except.ok.inj hd)
          have : negativeMarket ds = true := by rw [hcond]; simp [h2.1, h2.2]
          rw [this]
          exact ⟨rfl, fun h => by cases h⟩
        · rw [if_neg h2] at hd
          obtain ⟨rfl, rfl⟩ := Prod.mk.inj (Except.ok.inj hd)
          have : negativeMarket ds = false := by
            rw [hcond, Bool.and_eq_false_iff]
            by_cases hw : c = .waste
            · left; simp [hw]
            · right
              rw [Bool.or_eq_false_iff]
              exact ⟨Bool.eq_false_iff.mpr fun h => h1 ⟨hw, h⟩, by simpa using fun h => h2 ⟨hw, h⟩⟩
          rw [this]
          exact ⟨rfl, fun _ => rfl⟩
    · rw [if_neg ht] at hd
      obtain ⟨rfl, rfl⟩ := Prod.mk.inj (Except.ok.inj hd)
      have : negativeMarket ds = false := by unfold negativeMarket; simp [ht]
      rw [this]
      exact ⟨rfl, fun _ => rfl⟩

/-- **C127**, `normalize_reference_production_amount`: one row for every dataset that was scaled, with the factor. -/
theorem C127_normalized (M : MathEnv) (data : List Dataset) :
    Logs (normalizeAllL M data) (mapE (normalize M) data) fun rows out =>
      out.length = data.length ∧ rows = changedDatasets (fun a _ => (a.name, ((refs a).map (·.name)).headD "", ((refs a).map fun e => 1 / |e.amount|).headD 0)) data out := by
  constructor
  · unfold normalizeAllL
    refine mapL_data (fun ds => ?_) data
    unfold normalizeOneL normalize
    cases getSingleReferenceProduct ds with
    | error e => rfl
    | ok rp =>
      simp only [ebind_ok]
      split
      · rfl
      · simp only [epure, ebind_ok]
        split
        · cases mapE (fun e => scaleExchange M e (1 / |rp.amount|)) ds.exchanges <;> rfl
        · rfl
  · intro lg out h
    refine rows_of_datasets reads_reported (fun ds lg d' hd => ?_) h
    unfold normalizeOneL at hd
    obtain ⟨rp, hrp, hd⟩ := bind_eq_ok.mp hd
    have hr := getSingle_ok.mp hrp
    by_cases h0 : rp.amount = 0
    · rw [if_pos h0] at hd; cases hd
    rw [if_neg h0] at hd
    simp only [epure, ebind_ok] at hd
    by_cases hf : |1 / |rp.amount| - 1| > normEpsilon
    · rw [if_pos hf] at hd
      obtain ⟨ex, hex, hd⟩ := bind_eq_ok.mp hd
      obtain ⟨rfl, rfl⟩ := Prod.mk.inj (Except.ok.inj hd)
      rw [if_neg]
      · rw [hr]; rfl
      · intro hh
        have he : ds.exchanges = ex := congrArg (·.exchanges) hh
        rw [← he] at hex
        have hmem : rp ∈ ds.exchanges := by
          have : rp ∈ refs ds := by rw [hr]; simp
          exact (List.mem_filter.mp this).1
        have := List.forall₂_same.mp (forall₂_mapE_scale hex) rp hmem
        have hamt := this.amount
        have h1 : 1 / |rp.amount| = 1 := by
          field_simp at hamt ⊢
          exact hamt.symm
        rw [h1] at hf
        simp [normEpsilon] at hf
        exact absurd hf (by norm_num)
    · rw [if_neg hf] at hd
      obtain ⟨rfl, rfl⟩ := Prod.mk.inj (Except.ok.inj hd)
      rw [if_pos rfl]; rfl

namespace Spec

/-- A confidential activity. -/
def confidential (ds : Dataset) : Bool := ds.type == .transforming && confidentialNames.contains ds.name

end Spec

/-- **C127**, `assign_fake_pv_to_confidential_datasets`: the table lists the confidential activities with their product and the volume 1; every dataset that was changed is among
them. -/
theorem C127_confidential (data : List Dataset) :
    Logs (assignFakePvL data) (assignFakePvToConfidential data) fun rows out =>
      out.length = data.length ∧ rows = (data.filter confidential).map (fun ds => (ds.name, ((refs ds).map (·.name)).headD "", 1)) ∧
      (changedDatasets (fun a _ => (a.name, ((refs a).map (·.name)).headD "", 1)) data out).Sublist rows := by
  constructor
  · unfold assignFakePvL assignFakePvToConfidential
    refine mapL_data (fun ds => ?_) data
    unfold fakePvL assignFakePv
    split
    · cases getSingleReferenceProduct ds with
      | error e => rfl
      | ok rp =>
        simp only [ebind_ok]
        cases getKey rp.pv <;> rfl
    · rfl
  · intro lg out h
    refine rows_of_listed (c := confidential) (row := fun ds => (ds.name, ((refs ds).map (·.name)).headD "", 1)) (fun ds lg d' hd => ?_) h
    unfold fakePvL at hd
    by_cases hc : ds.type = .transforming ∧ confidentialNames.contains ds.name = true
    · rw [if_pos hc] at hd
      obtain ⟨rp, hrp, hd⟩ := bind_eq_ok.mp hd
      obtain ⟨pv, -, hd⟩ := bind_eq_ok.mp hd
      obtain ⟨rfl, rfl⟩ := Prod.mk.inj (Except.ok.inj hd)
      have : confidential ds = true := by unfold confidential; rw [hc.1, hc.2]; rfl
      rw [this, getSingle_ok.mp hrp]
      exact ⟨rfl, fun h => by cases h⟩
    · rw [if_neg hc] at hd
      obtain ⟨rfl, rfl⟩ := Prod.mk.inj (Except.ok.inj hd)
      have : confidential ds = false := by
        unfold confidential
        rw [Bool.and_eq_false_iff]
        by_cases ht : ds.type = .transforming
        · right; simpa using fun h => hc ⟨ht, by simpa using h⟩
        · left; simpa using ht
      rw [this]
      exact ⟨rfl, fun _ => rfl⟩

/-- The datasets with each of a list of distinct labels, counted and added up. -/
theorem sum_counts {labels : List String} (hnd : labels.Nodup) {o : List Dataset} (hlab : ∀ d ∈ o, ∃ l ∈ labels, d.allocationMethod = some l) :
    (labels.map fun l => (o.filter fun ds => ds.allocationMethod == some l).length).sum = o.length := by
  induction o with
  | nil => simp
  | cons d o ih =>
    have ih' := ih fun x hx => hlab x (List.mem_cons_of_mem _ hx)
    obtain ⟨l, hl, hd⟩ := hlab d List.mem_cons_self
    have hstep : ∀ ls : List String, (ls.map fun x => ((d :: o).filter fun ds => ds.allocationMethod == some x).length).sum =
        (ls.map fun x => (o.filter fun ds => ds.allocationMethod == some x).length).sum + ls.count l := by
      intro ls
      induction ls with
      | nil => rfl
      | cons x ls ihl =>
        rw [List.map_cons, List.sum_cons, ihl, List.map_cons, List.sum_cons, List.filter_cons, hd, List.count_cons]
        by_cases hx : l = x
        · subst hx
          simp only [beq_self_eq_true, if_true, List.length_cons]
          omega
        · have hx' : ¬ x = l := fun h => hx h.symm
          have h1 : (some l == some x) = false := by simpa using hx
          have h2 : (x == l) = false := by simpa using hx'
          rw [h1, h2]
          simp only [Bool.false_eq_true, if_false]
          omega
    rw [hstep, ih', List.count_eq_one_of_mem hnd hl]
    rfl

/-- **C127**, `label_allocation_method`: one row for each of the ten methods with the number of datasets that got it, and these numbers add up to the number of datasets. -/
theorem C127_methods (data : List Dataset) :
    Logs (labelMethodsL data) (labelAllocationMethod data) fun rows out =>
      rows = allocationLabels.map (fun l => (l, (out.filter fun ds => ds.allocationMethod == some l).length)) ∧ (rows.map (·.2)).sum = data.length := by
  constructor
  · unfold labelMethodsL
    cases labelAllocationMethod data <;> rfl
  · intro lg out h
    unfold labelMethodsL at h
    obtain ⟨o, ho, h⟩ := bind_eq_ok.mp h
    obtain ⟨rfl, rfl⟩ := Prod.mk.inj (Except.ok.inj h)
    rw [reported_map]
    refine ⟨rfl, ?_⟩
    have hlab : ∀ d ∈ o, ∃ l ∈ allocationLabels, d.allocationMethod = some l := by
      intro d hd
      obtain ⟨a, -, hab⟩ := mapE_mem ho hd
      obtain ⟨m, hm, hab⟩ := bind_eq_ok.mp hab
      rw [← Except.ok.inj hab]
      exact ⟨m, C13_choose_label a m hm, rfl⟩
    rw [← mapE_length ho, List.map_map]
    exact sum_counts (by decide) hlab

/-! ## C127: relabelling -/

theorem relabelGroupL_data (st : Log (String × List String) × List ((String × List String) × Dataset)) (k : String × List String) :
    (relabelGroupL st k).map (·.2) = relabelGroup st.2 k := by
  unfold relabelGroupL relabelGroup
  simp only
  split
  · rfl
  · split
    · cases checkSingleGlobalDataset ((st.2.filter fun p => decide (p.1 = k)).map (·.2)) with
      | error e => rfl
      | ok u =>
        simp only [ebind_ok]
        cases mapE (relabelMember k (regionalVolume ((st.2.filter fun p => decide (p.1 = k)).map (·.2)))) st.2 <;> rfl
    · rfl

theorem foldE_data {α σ ρ : Type} {f : Log ρ × σ → α → Except Err (Log ρ × σ)} {g : σ → α → Except Err σ} (hfg : ∀ st a, (f st a).map (·.2) = g st.2 a)
    (st : Log ρ × σ) (l : List α) : (foldE f st l).map (·.2) = foldE g st.2 l := by
  induction l generalizing st with
  | nil => rfl
  | cons a l ih =>
    simp only [foldE, ← hfg]
    cases f st a with
    | error e => rfl
    | ok st' => exact ih st'

/-- Is there a dataset with this key that is relabelled? -/
def rowLogged (data : List Dataset) (k : String × List String) : Bool := data.any fun d => decide (rowKey d = k ∧ Relabelled data d)

theorem relabelGroupL_step {data : List Dataset} {pre : List (String × List String)} {k : String × List String} {lg lg' : Log (String × List String)}
    {st' : List ((String × List String) × Dataset)} (hk : k ∉ pre)
    (h : relabelGroupL (lg, data.map fun d => (rowKey d, rowAfter data pre d)) k = .ok (lg', st')) :
    lg'.reported = lg.reported ++ if rowLogged data k then [(k.1, sortNames k.2)] else [] := by
  have hgroup : (((data.map fun d => (rowKey d, rowAfter data pre d)).filter fun p => decide (p.1 = k)).map (·.2)) =
      data.filter fun o => decide (rowKey o = k) := by
    rw [List.filter_map, List.map_map]
    conv_rhs => rw [← List.map_id (data.filter fun o => decide (rowKey o = k))]
    apply List.map_congr_left
    intro d hd
    have hdk : rowKey d = k := by simpa using (List.mem_filter.mp hd).2
    simp only [Function.comp, id]
    unfold rowAfter
    rw [if_neg]
    rintro ⟨h1, -⟩
    exact hk (hdk ▸ h1)
  have hgr : ∀ d, rowKey d = k → activityGroup data d = data.filter fun o => decide (rowKey o = k) := by
    intro d hd; rw [activityGroup_eq, hd]
  have hiff : rowLogged data k = true ↔ ¬ ((data.filter fun o => decide (rowKey o = k)).head?.map (·.type)) = some .marketGroup ∧
      1 < (data.filter fun o => decide (rowKey o = k)).length ∧ (data.filter fun o => decide (rowKey o = k)).any (fun d => d.location == "GLO") = true := by
    unfold rowLogged
    rw [List.any_eq_true]
    constructor
    · rintro ⟨d, hd, hdr⟩
      obtain ⟨hdk, hr⟩ := of_decide_eq_true hdr
      rw [← hgr d hdk]
      refine ⟨hr.2.2, hr.2.1, List.any_eq_true.mpr ⟨d, ?_, by simp [hr.1]⟩⟩
      rw [hgr d hdk]
      exact List.mem_filter.mpr ⟨hd, by simp [hdk]⟩
    · rintro ⟨h1, h2, h3⟩
      obtain ⟨d, hd, hl⟩ := List.any_eq_true.mp h3
      obtain ⟨hd1, hd2⟩ := List.mem_filter.mp hd
      have hdk := of_decide_eq_true hd2
      refine ⟨d, hd1, decide_eq_true ⟨hdk, by simpa using hl, ?_, ?_⟩⟩
      · rw [hgr d hdk]; exact h2
      · rw [hgr d hdk]; exact h1
  unfold relabelGroupL at h
  simp only [hgroup] at h
  by_cases hmg : ((data.filter fun o => decide (rowKey o = k)).head?.map (·.type)) = some .marketGroup
  · rw [if_pos hmg] at h
    obtain ⟨rfl, -⟩ := Prod.mk.inj (Except.ok.inj h)
    rw [if_neg fun h => (hiff.mp h).1 hmg, List.append_nil]
  · rw [if_neg hmg] at h
    by_cases hc : 1 < (data.filter fun o => decide (rowKey o = k)).length ∧ (data.filter fun o => decide (rowKey o = k)).any (fun d => d.location == "GLO") = true
    · rw [if_pos hc] at h
      obtain ⟨u, -, h⟩ := bind_eq_ok.mp h
      obtain ⟨s, -, h⟩ := bind_eq_ok.mp h
      obtain ⟨rfl, -⟩ := Prod.mk.inj (Except.ok.inj h)
      rw [if_pos (hiff.mpr ⟨hmg, hc⟩), reported_append, reported_one]
    · rw [if_neg hc] at h
      obtain ⟨rfl, -⟩ := Prod.mk.inj (Except.ok.inj h)
      rw [if_neg fun h => hc (hiff.mp h).2, List.append_nil]

theorem changedDatasets_map {ρ : Type} (row : Dataset → Dataset → ρ) (f : Dataset → Dataset) (data : List Dataset) :
    changedDatasets row data (data.map f) = (data.filter fun d => decide (f d ≠ d)).map fun d => row d (f d) := by
  unfold changedDatasets
  induction data with
  | nil => rfl
  | cons a l ih =>
    rw [List.map_cons, List.zip_cons_cons, List.filterMap_cons, ih, List.filter_cons]
    by_cases hc : f a = a
    · simp [hc]
    · have : ¬ a = f a := fun h => hc h.symm
      simp [hc, this]

theorem sortNames_idem (l : List String) : sortNames (sortNames l) = sortNames l := sortNames_congr (sortNames_perm l)

/-- **C127**, `relabel_global_to_row`: one row for every dataset that was relabelled, with its name and its products in order, and no other, up to the order of the rows. -/
theorem C127_relabelled (data : List Dataset) :
    Logs (relabelL data) (relabelGlobalToRow data) fun rows out =>
      out.length = data.length ∧ rows.Perm (changedDatasets (fun a _ => (a.name, sortNames (liveProducts a))) data out) := by
  have hdata : (relabelL data).map (·.2) = relabelGlobalToRow data := by
    unfold relabelL relabelGlobalToRow
    cases mapE withRowKey data with
    | error e => rfl
    | ok st =>
      simp only [ebind_ok]
      rw [← foldE_data relabelGroupL_data (([] : Log (String × List String)), st)]
      cases foldE relabelGroupL ([], st) ((groupBy (·.1) st).map (·.1)) <;> rfl
  refine ⟨hdata, fun lg out h => ?_⟩
  have hrel := map_snd_ok hdata h
  obtain ⟨hout, -, hcan⟩ := relabel_inv hrel
  unfold relabelL at h
  obtain ⟨st, hst, h⟩ := bind_eq_ok.mp h
  obtain ⟨st', hst', h⟩ := bind_eq_ok.mp h
  obtain ⟨rfl, -⟩ := Prod.mk.inj (Except.ok.inj h)
  obtain ⟨rfl, -⟩ := withRowKey_mapE hst
  set keys := (groupBy (fun p : (String × List String) × Dataset => p.1) (data.map fun d => (rowKey d, d))).map (·.1) with hkeysdef
  have hnd : keys.Nodup := groupBy_nodup _ _
  have hkeys : ∀ d ∈ data, rowKey d ∈ keys := fun d hd => (groupBy_keys_mem _ _ _).mpr ⟨(rowKey d, d), List.mem_map.mpr ⟨d, hd, rfl⟩, rfl⟩
  have hinv := foldE_inv' (I := fun pre st => st.2 = (data.map fun d => (rowKey d, rowAfter data pre d)) ∧
      st.1.reported = (pre.filter (rowLogged data)).map fun k => (k.1, sortNames k.2)) hst' (by
    refine ⟨?_, rfl⟩
    apply List.map_congr_left
    intro d _
    simp [rowAfter]) (by
    rintro pre k post ⟨lg, s⟩ ⟨lg', s'⟩ hl ⟨h1, h2⟩ hs
    simp only at h1 h2 ⊢
    subst h1
    have hk : k ∉ pre := by
      rw [hl] at hnd
      intro hmem
      exact (List.nodup_append.mp hnd).2.2 k hmem k (by simp) rfl
    refine ⟨(relabelGroup_step hk (map_snd_ok (relabelGroupL_data _ k) hs)).1, ?_⟩
    rw [relabelGroupL_step hk hs, h2, List.filter_append, List.map_append, List.filter_cons]
    cases rowLogged data k <;> rfl)
  refine ⟨by rw [hout, List.length_map], ?_⟩
  have hchg : (fun d => decide ((if Relabelled data d then asRow data d else d) ≠ d)) = fun d => decide (Relabelled data d) := by
    funext d
    by_cases hr : Relabelled data d
    · have : asRow data d ≠ d := by
        intro hh
        have h1 := congrArg (·.location) hh
        simp only [asRow] at h1
        rw [hr.1] at h1
        exact absurd h1 (by decide)
      simp [hr, this]
    · simp [hr]
  rw [hinv.2, hout, changedDatasets_map, hchg]
  have hperm : (keys.filter (rowLogged data)).Perm ((data.filter fun d => decide (Relabelled data d)).map rowKey) := by
    rw [List.perm_ext_iff_of_nodup (hnd.filter _)]
    · intro k
      rw [List.mem_filter, List.mem_map (f := rowKey)]
      constructor
      · rintro ⟨-, h2⟩
        obtain ⟨d, hd, hdr⟩ := List.any_eq_true.mp h2
        obtain ⟨hdk, hr⟩ := of_decide_eq_true hdr
        exact ⟨d, List.mem_filter.mpr ⟨hd, decide_eq_true hr⟩, hdk⟩
      · rintro ⟨d, hd, rfl⟩
        obtain ⟨hd1, hd2⟩ := List.mem_filter.mp hd
        exact ⟨hkeys d hd1, List.any_eq_true.mpr ⟨d, hd1, decide_eq_true ⟨rfl, of_decide_eq_true hd2⟩⟩⟩
    · rw [List.nodup_iff_count_le_one]
      intro k
      by_cases hk : k ∈ (data.filter fun d => decide (Relabelled data d)).map rowKey
      · obtain ⟨d, hd, rfl⟩ := List.mem_map.mp hk
        obtain ⟨hd1, hd2⟩ := List.mem_filter.mp hd
        have h1 := (hcan d hd1 (of_decide_eq_true hd2)).1
        rw [← h1, List.count, List.countP_map, List.countP_eq_length_filter, List.filter_filter, activityGroup_eq, List.filter_filter]
        refine List.Sublist.length_le (List.monotone_filter_right _ ?_)
        intro x hx
        simp only [Function.comp, Bool.and_eq_true, beq_iff_eq, decide_eq_true_eq] at hx ⊢
        exact ⟨hx.2.1, hx.1⟩
      · rw [List.count_eq_zero_of_not_mem hk]; omega
  refine (hperm.map _).trans ?_
  rw [List.map_map]
  refine List.Perm.of_eq (List.map_congr_left fun d _ => ?_)
  simp only [Function.comp, rowKey, sortNames_idem]

/-! ## C127: links -/

namespace Spec

/-- The datasets that a link may refer to: they have the id and make the product. -/
def targetsOfLink (data : List Dataset) (e : Exchange) : List Dataset :=
  data.filter fun d => some d.id = e.activityLink ∧ d.refProduct = some e.name

/-- A link that does not lead to exactly one dataset. -/
def unresolved (data : List Dataset) (e : Exchange) : Bool := e.activityLink.getD "" != "" && (targetsOfLink data e).length != 1

end Spec

theorem filterE_makesProduct {name : String} {l r : List Dataset} (h : filterE (makesProduct name) l = .ok r) :
    r = l.filter fun d => decide (d.refProduct = some name) := by
  induction l generalizing r with
  | nil => cases h; rfl
  | cons a l ih =>
    rw [filterE] at h
    obtain ⟨b, hb, h⟩ := bind_eq_ok.mp h
    obtain ⟨r', hr', h⟩ := bind_eq_ok.mp h
    unfold makesProduct at hb
    obtain ⟨p, hp, hb⟩ := bind_eq_ok.mp hb
    rw [← Except.ok.inj h, ← Except.ok.inj hb, ih hr', List.filter_cons, getKey_eq_ok.mp hp]
    by_cases hc : p = name <;> simp [hc]

theorem mapL_exchanges_rows {ρ : Type} {f : Exchange → Except Err (Log ρ × Exchange)} {G : Exchange → List ρ} (hf : ∀ e lg e', f e = .ok (lg, e') → lg.reported = G e)
    {l : List Exchange} {lg : Log ρ} {l' : List Exchange} (h : mapL f l = .ok (lg, l')) : lg.reported = l.flatMap G := by
  induction l generalizing lg l' with
  | nil => cases h; rfl
  | cons a l ih =>
    obtain ⟨x, y, h1, h2, h3⟩ := mapL_cons_ok h
    obtain ⟨rfl, rfl⟩ := Prod.mk.inj h3
    rw [reported_append, hf a x.1 x.2 h1, ih (lg := y.1) (l' := y.2) h2]
    rfl

/-- **C127**, `actualize_activity_links`: the table lists the links which do not lead to exactly one dataset that makes the product, in order, and no others. -/
theorem C127_unresolved (data : List Dataset) :
    Logs (actualizeL data) (actualizeActivityLinks data) fun rows _ =>
      rows = data.flatMap fun ds => (ds.exchanges.filter (unresolved data)).map fun e => (e.activityLink.getD "", e.name, e.amount) := by
  constructor
  · refine mapL_data (fun ds => exchangesL_data (fun e => ?_) ds) data
    unfold actualizeLinkL actualizeLink
    split
    · rfl
    · simp only
      split
      · rfl
      · simp only [epure, ebind_ok]
        cases filterE (makesProduct e.name) (data.filter fun ds => decide (some ds.id = e.activityLink)) with
        | error x => rfl
        | ok refs =>
          simp only [ebind_ok]
          rcases refs with _ | ⟨a, _ | ⟨b, l⟩⟩
          · rfl
          · unfold linkToOnly
            simp only
            cases getKey a.code <;> rfl
          · rfl
  · intro lg out h
    have hloop : ∀ (l : List Dataset) (lg : Log (String × String × ℚ)) (out : List Dataset), mapL (exchangesL (actualizeLinkL data)) l = .ok (lg, out) →
        lg.reported = l.flatMap fun ds => (ds.exchanges.filter (unresolved data)).map fun e => (e.activityLink.getD "", e.name, e.amount) := by
      intro l
      induction l with
      | nil => intro lg out h; cases h; rfl
      | cons a l ih =>
        intro lg out h
        obtain ⟨x, y, h1, h2, h3⟩ := mapL_cons_ok h
        obtain ⟨rfl, rfl⟩ := Prod.mk.inj h3
        rw [reported_append, ih y.1 y.2 h2, List.flatMap_cons]
        congr 1
        unfold exchangesL at h1
        obtain ⟨r, hr, h1⟩ := bind_eq_ok.mp h1
        rw [← Except.ok.inj h1]
        refine (mapL_exchanges_rows (G := fun e => if unresolved data e then [(e.activityLink.getD "", e.name, e.amount)] else []) (fun e lg e' he => ?_)
          (lg := r.1) (l' := r.2) hr).trans ?_
        · unfold actualizeLinkL at he
          unfold unresolved
          by_cases hl : e.activityLink.getD "" = ""
          · rw [if_pos hl] at he
            obtain ⟨rfl, rfl⟩ := Prod.mk.inj (Except.ok.inj he)
            rw [hl]; rfl
          · rw [if_neg hl] at he
            simp only at he
            split at he
            · cases he
            · simp only [epure, ebind_ok] at he
              obtain ⟨refs, hrefs, he⟩ := bind_eq_ok.mp he
              have hre := filterE_makesProduct hrefs
              rw [List.filter_filter] at hre
              have htar : targetsOfLink data e = refs := by
                rw [hre]
                unfold targetsOfLink
                refine List.filter_congr fun d _ => ?_
                rw [Bool.decide_and, Bool.and_comm]
              rw [htar]
              have hb : (e.activityLink.getD "" != "") = true := by simpa using hl
              rw [hb]
              rcases refs with _ | ⟨a, _ | ⟨b, l⟩⟩
              · obtain ⟨rfl, rfl⟩ := Prod.mk.inj (Except.ok.inj he); rfl
              · simp only at he
                obtain ⟨c, -, he⟩ := bind_eq_ok.mp he
                obtain ⟨rfl, rfl⟩ := Prod.mk.inj (Except.ok.inj he); rfl
              · obtain ⟨rfl, rfl⟩ := Prod.mk.inj (Except.ok.inj he)
                simp [Log.reported]
        · generalize a.exchanges = l
          induction l with
          | nil => rfl
          | cons e l ihe =>
            rw [List.flatMap_cons, ihe, List.filter_cons]
            cases unresolved data e <;> rfl
    exact hloop data lg out h

/-- **C127**, `link_consumers_to_recycled_content_activities`: one row for every input that was linked, and no other, with the name of a supplier that makes the product and
whose code it got (when codes are not empty). -/
theorem C127_recycled (data : List Dataset) (hcode : ∀ d ∈ data, d.code ≠ some "") :
    Logs (linkRecycledContentL data) (linkRecycledContent data) fun rows out =>
      OnlyExchanges data out ∧ rows.map (fun r => (r.1, r.2.1, r.2.2.1)) = changedExchanges (fun ds e _ => (ds.name, e.name, ds.location)) data out ∧
      ∀ r ∈ rows, ∃ d ∈ data, d.name = r.2.2.2 ∧ d.refProduct = some r.2.1 := by
  constructor
  · unfold linkRecycledContentL linkRecycledContent
    cases filterE makesRecycledContent data with
    | error x => rfl
    | ok rc =>
      simp only [ebind_ok]
      refine mapL_data (fun ds => exchangesL_data (fun e => ?_) ds) data
      unfold linkRecycledInputL linkRecycledInput
      split
      · generalize (rc.filter fun ds => ds.refProduct == some e.name) = refs
        rcases refs with _ | ⟨a, _ | ⟨b, l⟩⟩
        · rfl
        · unfold linkToOnly
          simp only
          cases getKey a.code <;> rfl
        · rfl
      · rfl
  · intro lg out h
    unfold linkRecycledContentL at h
    obtain ⟨rc, hrc, h⟩ := bind_eq_ok.mp h
    have hsub : ∀ d ∈ rc, d ∈ data := fun d hd => (filterE_sublist hrc).subset hd
    have hsup : ∀ name sup, (rc.filter fun ds => ds.refProduct == some name) = [sup] → sup ∈ data ∧ sup.refProduct = some name := by
      intro name sup h
      have : sup ∈ rc.filter fun ds => ds.refProduct == some name := by rw [h]; simp
      obtain ⟨h1, h2⟩ := List.mem_filter.mp this
      exact ⟨hsub _ h1, by simpa using h2⟩
    have hR : Reads (fun lg : Log (String × String × String × String) => lg.reported.map fun r => (r.1, r.2.1, r.2.2.1)) :=
      ⟨rfl, fun a b => by rw [reported_append, List.map_append]⟩
    have hmain := rows_of_exchanges hR (row := fun ds e _ => (ds.name, e.name, ds.location)) (fun ds _ lg d' h => rows_of_loop hR (fun e lg e' he => by
      unfold linkRecycledInputL at he
      by_cases hu : isUnlinked e = true
      · rw [if_pos hu] at he
        split at he
        · rename_i sup hs
          obtain ⟨c, hc, he⟩ := bind_eq_ok.mp he
          obtain ⟨rfl, rfl⟩ := Prod.mk.inj (Except.ok.inj he)
          rw [if_neg]
          · rfl
          · intro hh
            have h1 := congrArg (·.code) hh
            simp only at h1
            unfold isUnlinked at hu
            rw [Bool.and_eq_true, h1] at hu
            have h2 : c = "" := by simpa using hu.2
            exact hcode sup (hsup _ _ hs).1 (by rw [getKey_eq_ok.mp hc, h2])
        · obtain ⟨rfl, rfl⟩ := Prod.mk.inj (Except.ok.inj he)
          rw [if_pos rfl]; rfl
      · rw [if_neg hu] at he
        obtain ⟨rfl, rfl⟩ := Prod.mk.inj (Except.ok.inj he)
        rw [if_pos rfl]; rfl) h) h
    refine ⟨hmain.1, hmain.2, ?_⟩
    have hex : ∀ (ds : Dataset) (l : List Exchange) (lg : Log (String × String × String × String)) (l' : List Exchange), mapL (linkRecycledInputL rc ds) l = .ok (lg, l') →
        ∀ r ∈ lg.reported, ∃ d ∈ data, d.name = r.2.2.2 ∧ d.refProduct = some r.2.1 := by
      intro ds l
      induction l with
      | nil => intro lg l' h; cases h; simp [Log.reported]
      | cons e l ih =>
        intro lg l' h r hr
        obtain ⟨x, y, h1, h2, h3⟩ := mapL_cons_ok h
        obtain ⟨rfl, rfl⟩ := Prod.mk.inj h3
        rw [reported_append] at hr
        rcases List.mem_append.mp hr with hr | hr
        · unfold linkRecycledInputL at h1
          split at h1
          · split at h1
            · rename_i sup hs
              obtain ⟨c, -, h1⟩ := bind_eq_ok.mp h1
              rw [← Except.ok.inj h1] at hr
              have : r = (ds.name, e.name, ds.location, sup.name) := by simpa [Log.reported] using hr
              subst this
              exact ⟨sup, (hsup _ _ hs).1, rfl, (hsup _ _ hs).2⟩
            · rw [← Except.ok.inj h1] at hr; simp [Log.reported] at hr
          · rw [← Except.ok.inj h1] at hr; simp [Log.reported] at hr
        · exact ih y.1 y.2 h2 r hr
    have hds : ∀ (l : List Dataset) (lg : Log (String × String × String × String)) (l' : List Dataset),
        mapL (fun ds => exchangesL (linkRecycledInputL rc ds) ds) l = .ok (lg, l') →
        ∀ r ∈ lg.reported, ∃ d ∈ data, d.name = r.2.2.2 ∧ d.refProduct = some r.2.1 := by
      intro l
      induction l with
      | nil => intro lg l' h; cases h; simp [Log.reported]
      | cons a l ih =>
        intro lg l' h r hr
        obtain ⟨x, y, h1, h2, h3⟩ := mapL_cons_ok h
        obtain ⟨rfl, rfl⟩ := Prod.mk.inj h3
        rw [reported_append] at hr
        rcases List.mem_append.mp hr with hr | hr
        · unfold exchangesL at h1
          obtain ⟨q, hq, h1⟩ := bind_eq_ok.mp h1
          rw [← Except.ok.inj h1] at hr
          exact hex a a.exchanges q.1 q.2 hq r hr
        · exact ih y.1 y.2 h2 r hr
    exact hds data lg out h

/-- **C127**, `log_and_delete_unlinked_exchanges`, violated: the table announces every unlinked input, but in a dataset with a code none of them is deleted (and in one without a
code everything is). -/
theorem C127_unlinked_not_deleted (data : List Dataset) :
    Logs (logAndDeleteL data) (.ok (logAndDeleteUnlinked data)) fun rows out =>
      rows = (data.flatMap fun ds => (ds.exchanges.filter isUnlinked).map fun e => (ds.name, e.name, e.amount)) ∧
      out = data.map fun ds => if ds.code.getD "" = "" then { ds with exchanges := [] } else ds := by
  constructor
  · unfold logAndDeleteL
    rw [mapL_pure]; rfl
  · intro lg out h
    unfold logAndDeleteL at h
    rw [mapL_pure] at h
    obtain ⟨rfl, rfl⟩ := Prod.mk.inj (Except.ok.inj h)
    constructor
    · rw [reported_flatMap]
      congr 1
      funext ds
      rw [reported_map]
    · refine List.map_congr_left fun ds _ => ?_
      by_cases hc : ds.code.getD "" = ""
      · rw [if_pos hc]; simp [hc]
      · have : (ds.code.getD "" != "") = true := by simpa using hc
        rw [if_neg hc]
        simp only [this, List.filter_true]

/-! ## C127, violated: the consequential system model -/

/-- **C127**, violated by `delete_activity_links_to_constrained_markets`: its messages describe exactly the links that were removed, but none of them reaches the report. -/
theorem C127_lost_links (data : List Dataset) :
    (deleteLinksL data).map (·.2) = deleteLinksToConstrained data ∧
    ∀ lg out, deleteLinksL data = .ok (lg, out) → lg.reported = [] ∧ OnlyExchanges data out ∧
      lg.map (·.2) = changedExchanges (fun ds e _ => (ds.name, ds.location, e.name, e.amount)) data out := by
  constructor
  · unfold deleteLinksL deleteLinksToConstrained
    cases constrainedActivities data with
    | error x => rfl
    | ok c =>
      simp only [ebind_ok, epure]
      rw [← mapE_exchanges]
      refine mapL_data (fun ds => exchangesL_data (fun e => ?_) ds) data
      unfold dropLink
      split <;> rfl
  · intro lg out h
    unfold deleteLinksL at h
    obtain ⟨c, -, h⟩ := bind_eq_ok.mp h
    have hmain := rows_of_exchanges reads_all (row := fun ds e _ => (ds.name, ds.location, e.name, e.amount)) (fun ds _ lg d' h => rows_of_loop reads_all (fun e lg e' he => by
      by_cases hc : e.conditional ≠ some true ∧ e.activityLink.getD "" ≠ ""
      · rw [if_pos hc] at he
        obtain ⟨rfl, rfl⟩ := Prod.mk.inj (Except.ok.inj he)
        rw [if_neg]
        · rfl
        · intro hh
          have h1 := congrArg (·.activityLink) hh
          simp only at h1
          rw [h1] at hc
          exact hc.2 rfl
      · rw [if_neg hc] at he
        obtain ⟨rfl, rfl⟩ := Prod.mk.inj (Except.ok.inj he)
        rw [if_pos rfl]; rfl) h) h
    refine ⟨?_, hmain⟩
    have hz := mapL_rows (G := fun _ _ => []) (fun ds lg d' hd => by
      unfold exchangesL at hd
      obtain ⟨q, hq, hd⟩ := bind_eq_ok.mp hd
      rw [← (Prod.mk.inj (Except.ok.inj hd)).1]
      refine (mapL_exchanges_rows (G := fun _ => []) (fun e lg e' he => ?_) (lg := q.1) (l' := q.2) hq).trans (by simp)
      split at he <;> (obtain ⟨rfl, rfl⟩ := Prod.mk.inj (Except.ok.inj he); rfl)) h
    rw [hz]; simp

/-- **C127**, violated by `switch_undefined_to_current`: its messages describe exactly the datasets whose technology level was changed, but none of them reaches the report. -/
theorem C127_lost_levels (data : List Dataset) :
    (switchUndefinedL data).map (·.2) = switchUndefinedToCurrent data ∧
    ∀ lg out, switchUndefinedL data = .ok (lg, out) → lg.reported = [] ∧ out.length = data.length ∧
      (lg.map fun m => (m.2.1, some m.2.2.1, m.2.2.2)) = changedDatasets (fun a _ => (a.name, a.refProduct, a.location)) data out := by
  constructor
  · refine mapL_data (fun ds => ?_) data
    unfold switchLevelL switchLevel
    split
    · cases getKey ds.technologyLevel with
      | error x => rfl
      | ok t =>
        simp only [ebind_ok]
        split
        · cases getKey ds.refProduct <;> rfl
        · rfl
    · rfl
  · intro lg out h
    have hcases : ∀ ds lg d', switchLevelL ds = .ok (lg, d') → lg.reported = [] ∧
        (lg.map fun m => (m.2.1, some m.2.2.1, m.2.2.2)) = if ds = d' then [] else [(ds.name, ds.refProduct, ds.location)] := by
      intro ds lg d' hd
      unfold switchLevelL at hd
      split at hd
      · obtain ⟨t, ht, hd⟩ := bind_eq_ok.mp hd
        split at hd
        · rename_i hu
          obtain ⟨r, hr, hd⟩ := bind_eq_ok.mp hd
          obtain ⟨rfl, rfl⟩ := Prod.mk.inj (Except.ok.inj hd)
          refine ⟨rfl, ?_⟩
          rw [if_neg]
          · rw [getKey_eq_ok.mp hr]; rfl
          · intro hh
            have h1 := congrArg (·.technologyLevel) hh
            simp only [getKey_eq_ok.mp ht, hu] at h1
            exact absurd h1 (by decide)
        · obtain ⟨rfl, rfl⟩ := Prod.mk.inj (Except.ok.inj hd)
          exact ⟨rfl, by rw [if_pos rfl]; rfl⟩
      · obtain ⟨rfl, rfl⟩ := Prod.mk.inj (Except.ok.inj hd)
        exact ⟨rfl, by rw [if_pos rfl]; rfl⟩
    have hR : Reads (fun lg : Log (String × String × String) => lg.map fun m => (m.2.1, some m.2.2.1, m.2.2.2)) := ⟨rfl, fun _ _ => List.map_append⟩
    have hmain := rows_of_datasets hR (row := fun a _ => (a.name, a.refProduct, a.location)) (fun ds lg d' hd => (hcases ds lg d' hd).2) h
    refine ⟨?_, hmain⟩
    have hz := mapL_rows (G := fun _ _ => []) (fun ds lg d' hd => (hcases ds lg d' hd).1) h
    rw [hz]; simp

theorem modifyLast_find {i : String} {f : Dataset → Except Err Dataset} : ∀ {st st' : List Dataset}, modifyLast i f st = .ok st' →
    ∃ d d', st.reverse.find? (fun x => x.id == i) = some d ∧ f d = .ok d'
  | [], st', h => by simp [modifyLast] at h
  | d :: l, st', h => by
    rw [modifyLast] at h
    rw [List.reverse_cons, List.find?_append]
    split at h
    · obtain ⟨r, h1, -⟩ := bind_eq_ok.mp h
      obtain ⟨x, x', h2, h3⟩ := modifyLast_find h1
      exact ⟨x, x', by rw [h2]; rfl, h3⟩
    · rename_i hany
      split at h
      · rename_i hd
        obtain ⟨d', h1, -⟩ := bind_eq_ok.mp h
        refine ⟨d, d', ?_, h1⟩
        have : l.reverse.find? (fun x => x.id == i) = none := by
          rw [List.find?_eq_none]
          intro x hx hh
          exact hany (List.any_eq_true.mpr ⟨x, List.mem_reverse.mp hx, hh⟩)
        rw [this]
        simp [hd]
      · cases h

/-- **C127**, violated by `handle_constrained_markets`: one message for every constrained exchange, none of which reaches the report. -/
theorem C127_lost_swaps (data : List Dataset) :
    (handleConstrainedL data).map (·.2) = handleConstrainedMarkets data ∧
    ∀ lg out, handleConstrainedL data = .ok (lg, out) → lg.reported = [] ∧ lg.map (·.2.1) = (constrainedExchanges data).map (·.2.2.name) := by
  constructor
  · refine foldE_data (fun st p => ?_) (([] : Log (String × String × String × String)), data) (constrainedExchanges data)
    unfold constrainedStepL constrainedStep
    cases getKey p.2.2.activityLink with
    | error x => rfl
    | ok link =>
      simp only [ebind_ok]
      cases hm : modifyLast link (swapRoles p.2.2.name) (modifyExchange p.1 p.2.1 toInput st.2) with
      | error x => rfl
      | ok next =>
        obtain ⟨d, d', hd, hsw⟩ := modifyLast_find hm
        simp only [ebind_ok, hd]
        unfold swapRoles at hsw
        obtain ⟨rp, hrp, -⟩ := bind_eq_ok.mp hsw
        unfold swapRow
        simp only [getKey_some, ebind_ok, hrp, epure]
        rfl
  · intro lg out h
    have hinv := foldE_inv' (I := fun pre st => st.1.reported = [] ∧ st.1.map (·.2.1) = pre.map (·.2.2.name)) h ⟨rfl, rfl⟩ (by
      rintro pre p post ⟨lg, st⟩ ⟨lg', st'⟩ - ⟨h1, h2⟩ hs
      unfold constrainedStepL at hs
      obtain ⟨link, -, hs⟩ := bind_eq_ok.mp hs
      obtain ⟨next, -, hs⟩ := bind_eq_ok.mp hs
      obtain ⟨target, -, hs⟩ := bind_eq_ok.mp hs
      obtain ⟨row, hrow, hs⟩ := bind_eq_ok.mp hs
      obtain ⟨rfl, -⟩ := Prod.mk.inj (Except.ok.inj hs)
      unfold swapRow at hrow
      obtain ⟨rp, -, hrow⟩ := bind_eq_ok.mp hrow
      simp only at h1 h2 ⊢
      rw [reported_append, h1, List.map_append, h2, List.map_append, ← Except.ok.inj hrow]
      exact ⟨rfl, rfl⟩)
    exact hinv

namespace Spec

/-- The transforming activities for a product. -/
def activitiesFor (data : List Dataset) (product : String) : List Dataset :=
  data.filter fun ds => ds.type == .transforming && ds.refProduct == some product

end Spec

/-- **C127**, violated by `log_conflicting_technology_levels`: its messages are the products whose activities have both undefined and current technology levels, each with the number
of its activities, but none of them reaches the report. -/
theorem C127_lost_conflicts (data : List Dataset) (lg : Log (String × ℕ)) (out : List Dataset) (h : logConflictsL data = .ok (lg, out)) :
    out = data ∧ lg.reported = [] ∧ ∀ product n, (product, n) ∈ lg.map (·.2) ↔
      (∃ a ∈ activitiesFor data product, a.technologyLevel = some "undefined") ∧ (∃ a ∈ activitiesFor data product, a.technologyLevel = some "current") ∧
      n = (activitiesFor data product).length := by
  unfold logConflictsL at h
  obtain ⟨l, hl, h⟩ := bind_eq_ok.mp h
  obtain ⟨t, -, h⟩ := bind_eq_ok.mp h
  obtain ⟨rfl, rfl⟩ := Prod.mk.inj (Except.ok.inj h)
  refine ⟨rfl, reported_root _, fun product n => ?_⟩
  have hgroup : ∀ l k, mapE withRefProduct (data.filter fun ds => ds.type == .transforming) = .ok l →
      (l.filter fun p => decide (p.1 = k)).map (·.2) = activitiesFor data k := by
    intro l k hl
    unfold activitiesFor
    have : (data.filter fun ds => ds.type == .transforming && ds.refProduct == some k) =
        (data.filter fun ds => ds.type == .transforming).filter fun ds => ds.refProduct == some k := by
      rw [List.filter_filter]
      exact List.filter_congr fun d _ => Bool.and_comm _ _
    rw [this]
    generalize data.filter (fun ds => ds.type == .transforming) = src at hl
    have hF := mapE_ok_iff.mp hl
    clear hl this
    induction hF with
    | nil => rfl
    | @cons a b as bs hab _ ih =>
      unfold withRefProduct at hab
      obtain ⟨r, hr, hab⟩ := bind_eq_ok.mp hab
      rw [← Except.ok.inj hab, List.filter_cons, List.filter_cons, getKey_eq_ok.mp hr]
      by_cases hc : r = k <;> simp [hc, ih]
  rw [List.map_map]
  simp only [List.mem_map, List.mem_filterMap, Function.comp]
  constructor
  · rintro ⟨r, ⟨g, hg, hrow⟩, hr⟩
    subst hr
    unfold conflictRow at hrow
    simp only [groupBy_mem hg] at hrow
    rw [hgroup l g.1 hl] at hrow
    split at hrow
    · rename_i hc
      obtain ⟨rfl, rfl⟩ := Prod.mk.inj (Option.some.inj hrow)
      rw [Bool.and_eq_true, List.any_eq_true, List.any_eq_true] at hc
      simpa using hc
    · cases hrow
  · rintro ⟨hu, hc, rfl⟩
    refine ⟨(product, (activitiesFor data product).length), ⟨(product, l.filter fun p => decide (p.1 = product)), ?_, ?_⟩, rfl⟩
    · have hk : product ∈ (groupBy (fun p : String × Dataset => p.1) l).map (·.1) := by
        rw [groupBy_keys_mem]
        obtain ⟨a, ha, -⟩ := hu
        rw [← hgroup l product hl] at ha
        obtain ⟨p, hp, -⟩ := List.mem_map.mp ha
        obtain ⟨hp1, hp2⟩ := List.mem_filter.mp hp
        exact ⟨p, hp1, of_decide_eq_true hp2⟩
      obtain ⟨g, hg, hgk⟩ := List.mem_map.mp hk
      have := groupBy_mem hg
      rw [hgk] at this
      rw [← this, ← hgk]
      exact hg
    · unfold conflictRow
      simp only [hgroup l product hl]
      rw [if_pos]
      rw [Bool.and_eq_true, List.any_eq_true, List.any_eq_true]
      simpa using ⟨hu, hc⟩

/-! ## Examples -/

/-- An activity with what the tables are about, and its child in another location. -/
def Spec.exampleLogged : List Dataset :=
  [{ name := "a", id := "1", location := "GLO", refProduct := some "p, Recycled Content cut-off", startDate := some "2010-01-01", endDate := some "2020-01-01",
     technologyLevel := some "current", exchanges := [{ name := "p, Recycled Content cut-off", type := .referenceProduct, cls := some .allocatable, amount := 2, activityLink := some "x", pv := some { amount := 10 } },
       { name := "q", type := .byproduct, cls := some .allocatable, amount := 3, pv := some { amount := 0 } },
       { name := "s", type := .byproduct, cls := some .waste, amount := 3, formula := some "k" }, { name := "r", type := .byproduct, cls := some .recyclable, amount := 1, pv := some { amount := 4 } },
       { name := "t", type := .fromTechnosphere, amount := 0, activityLink := some "y" },
       { name := "u", type := .fromTechnosphere, amount := 5, properties := [{ name := "consequential", amount := 1 }] }] },
   { name := "a", id := "2", parent := some "1", location := "CH", refProduct := some "p",
     exchanges := [{ name := "p", type := .referenceProduct, cls := some .allocatable, amount := 1, pv := some { amount := 4 } }, { name := "v", type := .fromTechnosphere, amount := 7, activityLink := some "1" }] }]

example : (dropZeroLinksL exampleLogged).map (·.1.reported) = .ok [("a", "t")] := by decide +kernel
example : (dropRpLinksL exampleLogged).map (·.1.reported) = .ok [("a", "p, Recycled Content cut-off")] := by decide +kernel
example : (removeConsequentialL exampleLogged).map (·.1.reported) = .ok [("a", "u", 5)] := by decide +kernel
example : (updateParentChildL exampleLogged).map (·.1.reported) = .ok [("a", "CH", 7)] := by decide +kernel
example : ∀ ds ∈ exampleLogged, ds.parent ≠ some ds.id := by decide +kernel
example : (addPvL exampleLogged).map (·.1.reported) = .ok [("a", "q", 15)] := by decide +kernel
example : (flipNonAllocatableL exampleLogged).map (·.1.reported) = .ok [("a", "s", .waste), ("a", "r", .recyclable)] := by decide +kernel
example : (renameAfterLinkingL exampleLogged).map (·.1.reported) = .ok [("a", "p", .exchange .referenceProduct, "GLO"), ("a", "p", .label, "GLO")] := by decide +kernel
example : (createRecycledL exampleLogged).map (·.1.reported) = .ok ["r"] := by decide +kernel
example : (deleteGlobalL .market exampleZeroRow).map (·.1.reported) = .ok [("m", "p", "RoW")] := by decide +kernel
example : (deleteWhitelistedL [{ name := "market for refinery gas", type := .market, location := "GLO", refProduct := some "refinery gas" }, { name := "market for refinery gas", type := .market, location := "CH", refProduct := some "refinery gas" }]).map
    (·.1.reported) = .ok [("market for refinery gas", "refinery gas")] := by decide +kernel
example : (relabelL exampleRow).map (·.1.reported) = .ok [("a", ["p"])] := by decide +kernel
example : (actualizeL exampleLinked).map (·.1.reported) = .ok [("1", "x", 2)] := by decide +kernel
example : (linkRecycledContentL exampleRecyclers).map (·.1.reported) = .ok [("use", "p, Recycled Content cut-off", "GLO", "collection")] := by decide +kernel
example : ∀ d ∈ exampleRecyclers, d.code ≠ some "" := by decide +kernel
/-- Two inputs are announced as deleted and none is. -/
example : (logAndDeleteL exampleRecyclers).map (fun r => (r.1.reported.map (·.2.1), decide (r.2 = exampleRecyclers))) = .ok (["p, Recycled Content cut-off", "p"], true) := by decide +kernel
example : (deleteLinksL exampleLinked).map (fun r => (r.1.reported, r.1.map (·.2.2.2), decide (r.2 = exampleLinked))) =
    .ok ([], [("p", 2), ("x", 2)], false) := by decide +kernel
example : (handleConstrainedL exampleConstrained).map (fun r => (r.1.reported, r.1.map (·.2.2.2.2), decide (r.2 = exampleConstrained))) =
    .ok ([], ["z"], false) := by decide +kernel

/-- Two activities for the same product, one with an undefined technology level. -/
def Spec.exampleLevels : List Dataset :=
  [{ name := "a", refProduct := some "p", technologyLevel := some "undefined" }, { name := "b", refProduct := some "p", technologyLevel := some "current" }]

example : (logConflictsL exampleLevels).map (fun r => (r.1.reported, r.1.map (·.2))) = .ok ([], [("p", 2)]) := by decide +kernel
example : (switchUndefinedL exampleLevels).map (fun r => (r.1.reported, r.1.map (·.2), decide (r.2 = exampleLevels))) = .ok ([], [("a", "p", "GLO")], false) := by decide +kernel

example : (normalizeAllL sampleM [{ name := "a", exchanges := [{ name := "p", type := .referenceProduct, amount := 4 }] }, { name := "b", exchanges := [{ name := "q", type := .referenceProduct, amount := 1 }] }]).map
    (·.1.reported) = .ok [("a", "p", 1 / 4)] := by decide +kernel
example : (adjustMarketSignsL sampleM [{ name := "m", type := .market, location := "CH", exchanges := [{ name := "p", type := .referenceProduct, cls := some .allocatable, amount := -1 }] }]).map
    (·.1.reported) = .ok [("m", "CH")] := by decide +kernel
example : (assignFakePvL [{ name := "latex production", exchanges := [{ name := "latex", type := .referenceProduct, amount := 1, pv := some { amount := 0 } }] }, { name := "b" }]).map (·.1.reported) =
    .ok [("latex production", "latex", 1)] := by decide +kernel
example : (labelMethodsL (exampleLogged.drop 1)).map (fun r => r.1.reported.filter fun row => row.2 != 0) = .ok [("single product", 1)] := by decide +kernel

end Ocelot
