import Verif.Proofs.PipelineInventory
import Verif.Props.Pipeline

/-! # C93–C98: the inventories, the markets and the links that the cut-off model (C93, C94, C95) and the consequential model
(C96, C97, C98) return -/

namespace Ocelot
namespace Spec

/-- The total amount of the exchanges of one type, name and compartment. -/
def flowTotal (ds : Dataset) (t : ExcType) (name : String) (comp : Option (String × String)) : ℚ :=
  ((ds.exchanges.filter fun e => decide (e.type = t ∧ e.name = name ∧ e.compartment = comp)).map (·.amount)).sum

/-- The dataset under other names: `g` is applied to the names of the exchanges and of the product. -/
def renamed (g : String → String) (ds : Dataset) : Dataset :=
  { ds with exchanges := ds.exchanges.map fun e => { e with name := g e.name }, refProduct := ds.refProduct.map g }

/-- `g` takes the suffix that marks recyclable products away, and leaves names without it alone. -/
def StripsSuffix (g : String → String) : Prop :=
  (∀ n, ¬ rcSuffix.toList <:+: n.toList → g (n ++ rcSuffix) = n) ∧ ∀ n, ¬ rcSuffix.toList <:+ n.toList → g n = n

/-- There is a market or market group for refinery gas outside the rest of the world, or nothing uses refinery gas. -/
def RefineryGasSold (data : List Dataset) : Prop :=
  (∃ d ∈ data, Sells "refinery gas" d ∧ d.location ≠ "RoW") ∨
    ∀ d ∈ data, ∀ e ∈ d.exchanges, e.type = .fromTechnosphere → e.name ≠ "refinery gas"

/-- No two inputs of a dataset have the same id. -/
def DistinctInputs (data : List Dataset) : Prop :=
  ∀ d ∈ data, ((d.exchanges.filter fun e => e.type == .fromTechnosphere).map (·.id)).Nodup

/-- Markets and market groups. -/
def IsMarket (d : Dataset) : Prop := d.type = .market ∨ d.type = .marketGroup

instance (d : Dataset) : Decidable (IsMarket d) := by unfold IsMarket; infer_instance

/-- `d'` has the same inventory as `d`, scaled by `k` (and by a sign, if it is a market): the net output of every product, and the
total of every other flow, such as emissions and resources. Of a market or market group, the flows of its own product `p` are
not counted, nor the flows called like `p` with the suffix. -/
def SameInventory (g : String → String) (d d' : Dataset) : Prop :=
  ∃ k s : ℚ, 0 < k ∧ (s = 1 ∨ s = -1) ∧ (d.type ≠ .market → s = 1) ∧
    ∀ n, (IsMarket d → ∀ p, d.refProduct = some p → n ≠ g p ∧ n ≠ g (p ++ rcSuffix)) →
      netOutput d' n = s * k * netOutput (renamed g d) n ∧
      ∀ t c, t ≠ .byproduct → t ≠ .fromTechnosphere → flowTotal d' t n c = s * k * flowTotal (renamed g d) t n c

end Spec

open Spec

def netW (n : String) : Weight := fun t m _ => if m = n then flowSign t else 0
def flowW (t : ExcType) (n : String) (c : Option (String × String)) : Weight := fun t' m c' => if t' = t ∧ m = n ∧ c' = c then 1 else 0

theorem netOutput_weigh (d : Dataset) (n : String) : netOutput d n = weigh (netW n) d.exchanges := by
  unfold netOutput
  induction d.exchanges with
  | nil => rfl
  | cons e l ih =>
    rw [weigh_cons, ← ih, List.filter_cons]
    by_cases h : e.name = n
    · simp [h, netW]
    · simp [h, netW]

theorem flowTotal_weigh (d : Dataset) (t : ExcType) (n : String) (c : Option (String × String)) :
    flowTotal d t n c = weigh (flowW t n c) d.exchanges := by
  unfold flowTotal
  induction d.exchanges with
  | nil => rfl
  | cons e l ih =>
    rw [weigh_cons, ← ih, List.filter_cons]
    by_cases h : e.type = t ∧ e.name = n ∧ e.compartment = c
    · simp [h, flowW]
    · simp [h, flowW]

theorem weigh_renamed (g : String → String) (w : Weight) (d : Dataset) :
    weigh w (renamed g d).exchanges = weigh (fun t n c => w t (g n) c) d.exchanges := by
  unfold weigh renamed
  rw [List.map_map]
  rfl

theorem netW_balanced (n : String) : Balanced (netW n) := by
  intro m c
  unfold netW
  split <;> simp [flowSign]

theorem flowW_balanced {t : ExcType} (h1 : t ≠ .byproduct) (h2 : t ≠ .fromTechnosphere) (n : String) (c : Option (String × String)) :
    Balanced (flowW t n c) := by
  intro m c'
  unfold flowW
  rw [if_neg (fun h => h2 h.1.symm), if_neg (fun h => h1 h.1.symm)]
  simp

/-- The codes with the names of the products. -/
def codePairs (l : List Dataset) : List (String × String) :=
  l.filterMap fun d => match d.code, d.refProduct with | some c, some p => some (c, p) | _, _ => none

theorem mem_codePairs {l : List Dataset} {c p : String} : (c, p) ∈ codePairs l ↔ ∃ d ∈ l, d.code = some c ∧ d.refProduct = some p := by
  unfold codePairs
  rw [List.mem_filterMap]
  constructor
  · rintro ⟨d, hd, h⟩
    rcases h1 : d.code with _ | c'
    · simp [h1] at h
    · rcases h2 : d.refProduct with _ | p'
      · simp [h1, h2] at h
      · simp [h1, h2] at h
        exact ⟨d, hd, by rw [h1, h.1], by rw [h2, h.2]⟩
  · rintro ⟨d, hd, h1, h2⟩
    exact ⟨d, hd, by simp [h1, h2]⟩

/-- The coded datasets are good. -/
theorem coded_good {data coded : List Dataset} (rc loose : Bool) (hu : Unlinked data) (hc : ∀ d ∈ coded, ∃ c, d.code = some c)
    (hf : ∀ d' ∈ coded, ∃ d ∈ data, From d d') (hlab : ∀ d ∈ coded, Labelled d) (hne : ∀ d ∈ coded, d.code ≠ some "") :
    (∀ x ∈ codePairs coded, x.1 ≠ "") ∧ GoodAll ⟨codePairs coded, rc, loose⟩ coded := by
  have hun : ∀ d ∈ coded, d.suppliers = none ∧ ∀ e ∈ d.exchanges, e.code = none := by
    intro d hd
    obtain ⟨x, hx, hxd⟩ := hf d hd
    refine ⟨?_, fun e he => ?_⟩
    · rcases hxd.suppliers with h1 | h1
      · exact h1
      · exact h1.trans (hu x hx).1
    · rcases hxd.exchanges e he with h1 | ⟨y, hy, h1⟩
      · exact congrArg Prod.fst h1
      · exact (congrArg Prod.fst h1).trans ((hu x hx).2 y hy)
  refine ⟨?_, ?_⟩
  · rintro ⟨c, p⟩ hx hce
    obtain ⟨d, hd, h1, -⟩ := mem_codePairs.mp hx
    exact hne d hd (by rw [h1]; exact congrArg some hce)
  · intro d hd
    obtain ⟨c, hdc⟩ := hc d hd
    obtain ⟨rp, h1, h2⟩ := hlab d hd
    refine ⟨⟨c, rp.name, hdc, h2, mem_codePairs.mpr ⟨d, hd, hdc, h2⟩⟩, ⟨rp, h1, h2⟩, ?_, ?_⟩
    · intro e he c hec
      rw [(hun d hd).2 e he] at hec
      cases hec
    · intro l hl
      rw [(hun d hd).1] at hl
      cases hl

theorem gasOk_of (pairs : List (String × String)) (rc loose : Bool) {coded : List Dataset}
    (h : RefineryGasSold coded ∨ loose = true ∧ DistinctInputs coded) : GasOk ⟨pairs, rc, loose⟩ coded := by
  rcases h with h | ⟨hl, h⟩
  · rcases h with h | h
    · exact Or.inl h
    · exact Or.inr (Or.inl fun d hd e he ht _ => h d hd e he ht)
  · refine Or.inr (Or.inr ⟨hl, fun d hd => (List.Sublist.map _ ?_).nodup (h d hd)⟩)
    have : d.exchanges.filter (fun e => decide (e.type = .fromTechnosphere ∧ e.code = none ∧ e.name = "refinery gas")) =
        (d.exchanges.filter fun e => e.type == .fromTechnosphere).filter fun e => decide (e.code = none ∧ e.name = "refinery gas") := by
      rw [List.filter_filter]
      apply List.filter_congr
      intro e _
      by_cases h1 : e.type = .fromTechnosphere <;> simp [h1]
    rw [this]
    exact List.filter_sublist

/-- What the linked datasets and the returned ones have to do with the coded ones. -/
theorem cutoff_through {P : PipelineEnv} {data : List Dataset} {out : List Item} (hu : Unlinked data) (hmd : ∀ s, P.md5 s ≠ "")
    (h : runConfig P cutoffConfig data = .ok out) :
    ∃ coded result : List Dataset, runSteps P (cutoffBefore ++ [.addUniqueCodes]) data = .ok (coded.map .ds) ∧ out = result.map .ds ∧
      (∀ d ∈ coded, Labelled d) ∧
      (∀ t ∈ coded, t.location ≠ "RoW" → ∃ t' ∈ result, t'.code = t.code) ∧
      (coded.map (·.code)).Nodup ∧
      (∀ loose, RefineryGasSold coded ∨ loose = true ∧ DistinctInputs coded → ∀ d' ∈ result, ∃ d ∈ coded, ∃ x, Through true d x ∧ Finished stripRc x d' ∧
        GoodD ⟨codePairs coded, true, loose⟩ x) := by
  obtain ⟨coded, result, hs, rfl, hc, hn, hf, -, hk, -⟩ := cutoff_codes h
  have hlab := coded_labelled P (cutoffBefore.dropLast.dropLast.dropLast.dropLast.dropLast.dropLast) data coded (by
    have : cutoffBefore ++ [.addUniqueCodes] = cutoffBefore.dropLast.dropLast.dropLast.dropLast.dropLast.dropLast ++
        [.labelReferenceProduct, .deleteWhitelistedMarkets, .assignFakePv,
      .correctPipelineLocation, .relabelGlobalToRow, .checkNoRowMarketGroups, .addUniqueCodes] := by decide +kernel
    rw [← this]
    exact hs)
  refine ⟨coded, result, hs, rfl, hlab.1, ?_, hn, ?_⟩
  · intro t ht hl
    obtain ⟨t', ht', hte⟩ := List.mem_map.mp (hk (codeKey t) (List.mem_map.mpr ⟨t, ht, rfl⟩) hl)
    exact ⟨t', ht', congrArg (fun k => k.1) hte⟩
  · intro loose hgas
    obtain ⟨hK, hgood⟩ := coded_good true loose hu hc hf hlab.1 (hlab.2 hmd)
    have hgas' := gasOk_of (codePairs coded) true loose hgas
    have h0 := h
    rw [runConfig_eq, cutoff_unwrapped] at h0
    have hsplit : cutoffBefore ++ .addUniqueCodes :: (cutoffLinking ++ cutoffEnd) = (cutoffBefore ++ [.addUniqueCodes]) ++ ((([.actualizeActivityLinks, .addRecycledContentSuppliers,
      .addSuppliers .transforming .market, .updateMarketVolumes .market, .deleteGlobalZeroPv .market, .deleteGlobalZeroPv .transforming] ++
      [.allocateMarketSuppliers .market] ++ [.linkMarketGroupSuppliers, .updateMarketVolumes .marketGroup] ++ [.allocateMarketSuppliers .marketGroup] ++
      [.linkRecycledContent, .linkConsumersToMarkets, .addReferenceProductCodes, .logAndDeleteUnlinked])) ++
      [.renameRecycledAfterLinking, .flipNonAllocatableByproducts, .normalize, .adjustMarketSigns]) := by decide +kernel
    rw [hsplit] at h0
    obtain ⟨m1, k1, k2⟩ := foldE_split.mp h0
    have : m1 = coded.map .ds := Except.ok.inj (k1.symm.trans hs)
    subst this
    obtain ⟨m2, k3, k4⟩ := foldE_split.mp k2
    obtain ⟨r, rfl, g1, g2⟩ := linking_through P rfl hK coded m2 k3 hgood hgas'
    obtain ⟨r', hr', g3⟩ := finish_all P r _ k4
    have : result = r' := List.map_injective_iff.mpr (fun x y hxy => by cases hxy; rfl) hr'
    subst this
    intro d' hd'
    obtain ⟨x, hx, hf1⟩ := g3 d' hd'
    obtain ⟨d, hd, ht1⟩ := g2 x hx
    exact ⟨d, hd, x, ht1, hf1, g1 x hx⟩

theorem through_inventory {d x d' : Dataset} (ht : Through true d x) (hf : Finished stripRc x d') (hlab : Labelled d) : SameInventory stripRc d d' := by
  obtain ⟨rp, rp', k, s, s', h1, h2, h3, h4, h5, h6, h7, h8, h9⟩ := hf.weigh
  obtain ⟨rp0, l1, l2⟩ := hlab
  have hname : rp.name = rp0.name := by
    have := ht.refs
    unfold refPairs at this
    rw [h1, l1] at this
    simpa using (congrArg (List.map Prod.fst) this)
  have key : ∀ (n : String) (w : Weight), Balanced w → (∀ t m c, m ≠ n → w t m c = 0) →
      (IsMarket d → ∀ p, d.refProduct = some p → n ≠ stripRc p ∧ n ≠ stripRc (p ++ rcSuffix)) →
      weigh w d'.exchanges = s' * k * weigh w (renamed stripRc d).exchanges := by
    intro n w hb hz hm
    have hstep : weigh w d'.exchanges = s' * k * weigh (fun t n c => w t (stripRc n) c) x.exchanges := by
      by_cases hmk : d.type = .market
      · refine (h9 w hb).2.1 fun t c => hz _ _ _ ?_
        rw [hname]
        exact fun he => (hm (Or.inl hmk) _ l2).1 he.symm
      · obtain ⟨rfl, rfl⟩ := h6 (by rw [ht.type]; exact hmk)
        exact (h9 w hb).2.2 rfl
    rw [hstep, weigh_renamed]
    congr 1
    rcases ht.weigh with ⟨g1, -⟩ | ⟨g1, n', a, g2, g3, g4⟩
    · exact g1 _
    · have hm' := hm g1 n' g2
      have z1 : w .fromTechnosphere (stripRc n') none = 0 := hz _ _ _ (Ne.symm hm'.1)
      have z2 : w .fromTechnosphere (stripRc (n' ++ rcString)) none = 0 := hz _ _ _ (Ne.symm hm'.2)
      rw [g4 _ (fun _ => by simp only [z1, z2])]
      simp only [z1]
      ring
  refine ⟨k, s', h3, h5, fun hm => (h6 (by rw [ht.type]; exact hm)).2, fun n hn => ⟨?_, ?_⟩⟩
  · rw [netOutput_weigh, netOutput_weigh]
    exact key n _ (netW_balanced n) (fun t m c hmn => by simp [netW, hmn]) hn
  · intro t c t1 t2
    rw [flowTotal_weigh, flowTotal_weigh]
    exact key n _ (flowW_balanced t1 t2 n c) (fun t m c hmn => by simp [flowW, hmn]) hn

theorem stripRc_strips : StripsSuffix stripRc := ⟨stripRc_append, stripRc_other⟩

/-! ## C93 -/

/-- C93: let `coded` be the datasets right after `add_unique_codes`. Every dataset that the cut-off model returns is one of them,
with its inventory: linking and finishing scales all flows by one factor and changes neither emissions, resources nor net
outputs. It is assumed that the inputs of each dataset have different ids, or that refinery gas has a market if it is used; otherwise
inputs can be lost, see `C93_gas_lost`. -/
theorem C93_inventory (P : PipelineEnv) (data : List Dataset) (out : List Item) (hu : Unlinked data) (hmd : ∀ s, P.md5 s ≠ "")
    (h : runConfig P cutoffConfig data = .ok out) :
    ∃ (g : String → String) (coded result : List Dataset), StripsSuffix g ∧
      runSteps P (cutoffBefore ++ [.addUniqueCodes]) data = .ok (coded.map .ds) ∧ out = result.map .ds ∧
      (RefineryGasSold coded ∨ DistinctInputs coded → ∀ d' ∈ result, ∃ d ∈ coded, d'.code = d.code ∧ d'.type = d.type ∧ d'.name = d.name ∧
        d'.location = d.location ∧ d'.refProduct = d.refProduct.map g ∧ SameInventory g d d') := by
  obtain ⟨coded, result, h1, h2, h3, -, -, h5⟩ := cutoff_through hu hmd h
  refine ⟨stripRc, coded, result, stripRc_strips, h1, h2, fun hg d' hd' => ?_⟩
  obtain ⟨d, hd, x, ht, hf, -⟩ := h5 true (hg.imp id fun h => ⟨rfl, h⟩) d' hd'
  exact ⟨d, hd, hf.code.trans ht.code, hf.type.trans ht.type, hf.name.trans ht.name, hf.location.trans ht.location,
    by rw [hf.product, ht.product], through_inventory ht hf (h3 d hd)⟩

/-! ## C94 -/

theorem netOutput_refs {d : Dataset} {rp : Exchange} {p : String} (g : String → String) (hr : refs d = [rp]) (hp : g rp.name = p)
    (hown : ∀ e ∈ d.exchanges, g e.name = p → e.type = .referenceProduct) : weigh (fun t n c => netW p t (g n) c) d.exchanges = rp.amount := by
  have : ∀ l : List Exchange, (∀ e ∈ l, g e.name = p → e.type = .referenceProduct) → (∀ e ∈ l, e.type = .referenceProduct → g e.name = p) →
      weigh (fun t n c => netW p t (g n) c) l = ((l.filter fun e => e.type == .referenceProduct).map (·.amount)).sum := by
    intro l
    induction l with
    | nil => intro _ _; rfl
    | cons e l ih =>
      intro h1 h2
      rw [weigh_cons, ih (fun x hx => h1 x (by simp [hx])) (fun x hx => h2 x (by simp [hx])), List.filter_cons]
      by_cases ht : e.type = .referenceProduct
      · simp [ht, netW, h2 e (by simp) ht, flowSign]
      · have : g e.name ≠ p := fun hn => ht (h1 e (by simp) hn)
        simp [ht, netW, this]
  have hall : ∀ e ∈ d.exchanges, e.type = .referenceProduct → g e.name = p := by
    intro e he ht
    have : e ∈ refs d := List.mem_filter.mpr ⟨he, by simp [ht]⟩
    rw [hr, List.mem_singleton] at this
    rw [this, hp]
  rw [this _ hown hall]
  have : (d.exchanges.filter fun e => e.type == .referenceProduct) = [rp] := hr
  rw [this]
  simp

/-- C94: a market or market group that the cut-off model returns takes in as much of its product as it puts out, or takes in none
of it. Of the datasets right after `add_unique_codes` it is assumed that markets do not have other exchanges of their products.
The further assumption is as in C93. -/
theorem C94_market_balance (P : PipelineEnv) (data : List Dataset) (out : List Item) (hu : Unlinked data) (hmd : ∀ s, P.md5 s ≠ "")
    (h : runConfig P cutoffConfig data = .ok out) :
    ∃ (g : String → String) (coded result : List Dataset), StripsSuffix g ∧
      runSteps P (cutoffBefore ++ [.addUniqueCodes]) data = .ok (coded.map .ds) ∧ out = result.map .ds ∧
      (RefineryGasSold coded ∨ DistinctInputs coded → ∀ d' ∈ result, IsMarket d' → ∃ d ∈ coded, d'.code = d.code ∧
        ∀ p, d.refProduct = some p → ¬ rcSuffix.toList <:+: p.toList → (∀ e ∈ d.exchanges, g e.name = p → e.type = .referenceProduct) →
          d'.refProduct = some p ∧ ((∀ e ∈ d'.exchanges, e.name = p → e.type = .referenceProduct) ∨ netOutput d' p = 0)) := by
  obtain ⟨coded, result, h1, h2, h3, -, -, h5⟩ := cutoff_through hu hmd h
  refine ⟨stripRc, coded, result, stripRc_strips, h1, h2, fun hg d' hd' hm => ?_⟩
  obtain ⟨d, hd, x, ht, hf, -⟩ := h5 true (hg.imp id fun h => ⟨rfl, h⟩) d' hd'
  refine ⟨d, hd, hf.code.trans ht.code, fun p hp hsuf hown => ?_⟩
  have hstrip : stripRc p = p := stripRc_other p fun hh => hsuf hh.isInfix
  have happ : stripRc (p ++ rcString) = p := stripRc_append p hsuf
  obtain ⟨rp, rp', k, s, s', f1, f2, f3, f4, f5, f6, f7, f8, f9⟩ := hf.weigh
  obtain ⟨rp0, l1, l2⟩ := h3 d hd
  have hrp0 : rp0.name = p := Option.some.inj (l2.symm.trans hp)
  have hpair : rp.name = rp0.name ∧ rp.amount = rp0.amount := by
    have := ht.refs
    unfold refPairs at this
    rw [f1, l1] at this
    simpa using this
  have hname : stripRc rp.name = p := by rw [hpair.1, hrp0, hstrip]
  refine ⟨by rw [hf.product, ht.product, hp, Option.map_some, hstrip], ?_⟩
  rcases ht.weigh with ⟨-, g1⟩ | ⟨-, n, a, g2, g3, g4⟩
  · left
    intro e' he' hn
    obtain ⟨e, he, q1, -, q2⟩ := hf.old e' he'
    obtain ⟨e0, he0, q3, q4⟩ := g1 e he
    have : e0.type = .referenceProduct := hown e0 he0 (by rw [q4, ← q1, hn])
    rw [this] at q3
    rcases q2 with q2 | ⟨q2, -⟩
    · rw [q2, ← q3]
    · rw [q2] at q3; cases q3
  · right
    rw [hp] at g2
    cases g2
    have ha : a = rp0.amount := by
      unfold refPairs at g3
      rw [l1] at g3
      simp at g3
      exact g3.2.symm
    rw [netOutput_weigh]
    rw [(f9 _ (netW_balanced p)).1 (fun t n c hn => by rw [hname] at hn; simp [netW, hn])]
    rw [g4 _ (fun _ => by simp only [happ, hstrip])]
    rw [netOutput_refs stripRc l1 (by rw [hrp0, hstrip]) hown, hstrip, ha]
    simp [netW, flowSign]

/-! ## C95 -/

/-- C95: a link of the result leads to a dataset whose product has the name of the linked exchange. That dataset is in the result,
unless it was in the rest of the world and was deleted. Partial: either refinery gas has a market if it is used, or the link of
an input of refinery gas is excluded (and the inputs of each dataset have different ids). Otherwise this is false, see
`C95_wrong_product`. -/
theorem C95_linked_product_partial (P : PipelineEnv) (data : List Dataset) (out : List Item) (hu : Unlinked data) (hmd : ∀ s, P.md5 s ≠ "")
    (h : runConfig P cutoffConfig data = .ok out) :
    ∃ (g : String → String) (coded result : List Dataset), StripsSuffix g ∧
      runSteps P (cutoffBefore ++ [.addUniqueCodes]) data = .ok (coded.map .ds) ∧ out = result.map .ds ∧
      (∀ d ∈ result, ∀ e ∈ d.exchanges, ∀ c, e.code = some c → RefineryGasSold coded ∨ DistinctInputs coded ∧ e.name ≠ "refinery gas" →
        ∃ t ∈ coded, t.code = some c ∧ t.refProduct.map g = some e.name ∧
          (t.location ≠ "RoW" → ∃ t' ∈ result, t'.code = some c) ∧ ∀ t' ∈ result, t'.code = some c → t'.refProduct = some e.name) := by
  obtain ⟨coded, result, h1, h2, h3, h4, hn, h5⟩ := cutoff_through hu hmd h
  refine ⟨stripRc, coded, result, stripRc_strips, h1, h2, fun d' hd' e' he' c hc hg => ?_⟩
  obtain ⟨loose, hlo, hg'⟩ : ∃ loose, (RefineryGasSold coded ∨ loose = true ∧ DistinctInputs coded) ∧ (loose = true → e'.name ≠ "refinery gas") := by
    rcases hg with hg | ⟨hg, hne⟩
    · exact ⟨false, Or.inl hg, by simp⟩
    · exact ⟨true, Or.inr ⟨rfl, hg⟩, fun _ => hne⟩
  obtain ⟨d, hd, x, ht, hf, hgd⟩ := h5 loose hlo d' hd'
  obtain ⟨e, he, q1, q2, -⟩ := hf.old e' he'
  have hmem : (c, e.name) ∈ codePairs coded := by
    rcases hgd.exc e he c (by rw [← q2, hc]) with h | ⟨h6, h7, -⟩
    · exact h
    · refine absurd ?_ (hg' h6)
      rw [q1, h7]
      decide +kernel
  obtain ⟨t, htm, hcp⟩ := mem_codePairs.mp hmem
  refine ⟨t, htm, hcp.1, by rw [hcp.2, Option.map_some, q1], fun hl => ?_, ?_⟩
  · obtain ⟨t', ht', htc⟩ := h4 t htm hl
    exact ⟨t', ht', htc.trans hcp.1⟩
  · intro t' ht' htc
    obtain ⟨t0, ht0, y, hty, hfy, -⟩ := h5 loose hlo t' ht'
    have hcode : t0.code = t.code := by rw [← hty.code, ← hfy.code, htc, hcp.1]
    have : t0 = t := List.inj_on_of_nodup_map hn ht0 htm hcode
    rw [hfy.product, hty.product, this, hcp.2, Option.map_some, q1]

/-! ## C96 -/

theorem consequential_through {P : PipelineEnv} {data : List Dataset} {out : List Item} (hu : Unlinked data) (hmd : ∀ s, P.md5 s ≠ "")
    (h : runConfig P consequentialConfig data = .ok out) :
    ∃ coded result : List Dataset, runSteps P (consequentialBefore ++ [.addUniqueCodes]) data = .ok (coded.map .ds) ∧ out = result.map .ds ∧
      (∀ d ∈ coded, Labelled d) ∧ (coded.map (·.code)).Nodup ∧ (∀ t ∈ coded, ∃ t' ∈ result, t'.code = t.code) ∧
      (∀ loose, RefineryGasSold coded ∨ loose = true ∧ DistinctInputs coded → ∀ d' ∈ result, ∃ d ∈ coded, ∃ x, Through false d x ∧ (d.type ≠ .market → Same d x) ∧
        GoodD ⟨codePairs coded, false, loose⟩ x ∧ ∃ k : ℚ, 0 < k ∧ d' = { x with exchanges := d'.exchanges } ∧
          List.Forall₂ (ScaledBy k) x.exchanges d'.exchanges) := by
  obtain ⟨coded, result, hs, rfl, hc, hn, hf, -, hk, -⟩ := consequential_codes h
  have hlab := coded_labelled_consequential P (consequentialBefore.dropLast.dropLast.dropLast.dropLast) data coded (by
    have : consequentialBefore ++ [.addUniqueCodes] = consequentialBefore.dropLast.dropLast.dropLast.dropLast ++
        [.labelReferenceProduct, .deleteWhitelistedMarkets, .assignFakePv, .relabelGlobalToRow, .addUniqueCodes] := by decide +kernel
    rw [← this]
    exact hs)
  refine ⟨coded, result, hs, rfl, hlab.1, hn, ?_, ?_⟩
  · intro t ht
    obtain ⟨t', ht', hte⟩ := List.mem_map.mp (hk (codeKey t) (List.mem_map.mpr ⟨t, ht, rfl⟩) trivial)
    exact ⟨t', ht', congrArg (fun k => k.1) hte⟩
  · intro loose hgas
    obtain ⟨hK, hgood⟩ := coded_good false loose hu hc hf hlab.1 (hlab.2 hmd)
    have hgas' := gasOk_of (codePairs coded) false loose hgas
    have h0 := h
    rw [runConfig_eq, consequential_unwrapped] at h0
    have hsplit : consequentialBefore ++ .addUniqueCodes :: consequentialAfter = (consequentialBefore ++ [.addUniqueCodes]) ++
      (([.actualizeActivityLinks, .addSuppliers .transforming .market, .pruneByTechnologyLevel,
      .updateMarketVolumes .market, .addSuppliers .market .marketGroup, .updateMarketVolumes .marketGroup] ++
      [.allocateMarketSuppliers .market] ++ [.deleteSuppliersList, .linkConsumersToMarkets, .logAndDeleteUnlinked]) ++ [.normalize]) := by decide +kernel
    rw [hsplit] at h0
    obtain ⟨m1, k1, k2⟩ := foldE_split.mp h0
    have : m1 = coded.map .ds := Except.ok.inj (k1.symm.trans hs)
    subst this
    obtain ⟨m2, k3, k4⟩ := foldE_split.mp k2
    obtain ⟨r, rfl, g1, g2⟩ := linking_through_consequential P rfl hK coded m2 k3 hgood hgas'
    obtain ⟨r', hr', g3⟩ := normalize_finished P r _ k4
    have : result = r' := List.map_injective_iff.mpr (fun x y hxy => by cases hxy; rfl) hr'
    subst this
    intro d' hd'
    obtain ⟨x, hx, hf1⟩ := g3 d' hd'
    obtain ⟨d, hd, ht1, ht2⟩ := g2 x hx
    exact ⟨d, hd, x, ht1, ht2, g1 x hx, hf1⟩

/-- C96: let `coded` be the datasets right after `add_unique_codes`. Every dataset that the consequential model returns
is one of them, with the total of each flow scaled by one factor. Of a market, the inputs of its own product are not counted.
The further assumption is as in C93. -/
theorem C96_inventory (P : PipelineEnv) (data : List Dataset) (out : List Item) (hu : Unlinked data) (hmd : ∀ s, P.md5 s ≠ "")
    (h : runConfig P consequentialConfig data = .ok out) :
    ∃ coded result : List Dataset, runSteps P (consequentialBefore ++ [.addUniqueCodes]) data = .ok (coded.map .ds) ∧ out = result.map .ds ∧
      (RefineryGasSold coded ∨ DistinctInputs coded → ∀ d' ∈ result, ∃ d ∈ coded, d'.code = d.code ∧ d'.type = d.type ∧ d'.name = d.name ∧
        d'.location = d.location ∧ d'.refProduct = d.refProduct ∧ ∃ k : ℚ, 0 < k ∧
          ∀ t n c, ¬ (d.type = .market ∧ t = .fromTechnosphere ∧ d.refProduct = some n) → flowTotal d' t n c = k * flowTotal d t n c) := by
  obtain ⟨coded, result, h1, h2, h3, -, -, h5⟩ := consequential_through hu hmd h
  refine ⟨coded, result, h1, h2, fun hg d' hd' => ?_⟩
  obtain ⟨d, hd, x, ht, hs, -, k, hk, hx, hF⟩ := h5 true (hg.imp id fun h => ⟨rfl, h⟩) d' hd'
  refine ⟨d, hd, by rw [hx]; exact ht.code, by rw [hx]; exact ht.type, by rw [hx]; exact ht.name, by rw [hx]; exact ht.location,
    by rw [hx]; exact ht.product, k, hk, fun t n c hn => ?_⟩
  rw [flowTotal_weigh, flowTotal_weigh, weigh_scaled hF]
  congr 1
  by_cases hm : d.type = .market
  · rcases ht.weigh with ⟨g1, -⟩ | ⟨-, p, a, g2, -, g4⟩
    · exact g1 _
    · rw [g4 _ (by simp)]
      have : flowW t n c .fromTechnosphere p none = 0 := by
        unfold flowW
        rw [if_neg]
        rintro ⟨rfl, rfl, -⟩
        exact hn ⟨hm, rfl, g2⟩
      rw [this]
      ring
  · exact (hs hm).weigh _

def inW (n : String) : Weight := fun t m _ => if t = .fromTechnosphere ∧ m = n then 1 else 0

theorem inputTotal_weigh (d : Dataset) (n : String) : inputTotal d n = weigh (inW n) d.exchanges := by
  unfold inputTotal
  induction d.exchanges with
  | nil => rfl
  | cons e l ih =>
    rw [weigh_cons, ← ih, List.filter_cons]
    by_cases h : e.type = .fromTechnosphere ∧ e.name = n
    · simp [h, inW]
    · simp [h, inW]

def refW : Weight := fun t _ _ => if t = .referenceProduct then 1 else 0

theorem refSum_weigh (d : Dataset) : ((refs d).map (·.amount)).sum = weigh refW d.exchanges := by
  unfold refs
  induction d.exchanges with
  | nil => rfl
  | cons e l ih =>
    rw [weigh_cons, ← ih, List.filter_cons]
    by_cases h : e.type = .referenceProduct
    · simp [h, refW]
    · simp [h, refW]

/-! ## C97 -/

/-- C97: a market that the consequential model returns takes in as much of its product as it puts out, or takes in none of
it. Of the datasets right after `add_unique_codes` it is assumed that markets do not take in their own product. Market groups get
no inputs of their product at all. The further assumption is as in C93. -/
theorem C97_market_balance (P : PipelineEnv) (data : List Dataset) (out : List Item) (hu : Unlinked data) (hmd : ∀ s, P.md5 s ≠ "")
    (h : runConfig P consequentialConfig data = .ok out) :
    ∃ coded result : List Dataset, runSteps P (consequentialBefore ++ [.addUniqueCodes]) data = .ok (coded.map .ds) ∧ out = result.map .ds ∧
      (RefineryGasSold coded ∨ DistinctInputs coded → ∀ d' ∈ result, IsMarket d' → ∃ d ∈ coded, d'.code = d.code ∧
        ∀ p, d.refProduct = some p → (∀ e ∈ d.exchanges, e.type = .fromTechnosphere → e.name ≠ p) →
          d'.refProduct = some p ∧
            ((∀ e ∈ d'.exchanges, e.type = .fromTechnosphere → e.name ≠ p) ∨
              d.type = .market ∧ inputTotal d' p = ((refs d').map (·.amount)).sum)) := by
  obtain ⟨coded, result, h1, h2, h3, -, -, h5⟩ := consequential_through hu hmd h
  refine ⟨coded, result, h1, h2, fun hg d' hd' _ => ?_⟩
  obtain ⟨d, hd, x, ht, hs, -, k, hk, hx, hF⟩ := h5 true (hg.imp id fun h => ⟨rfl, h⟩) d' hd'
  refine ⟨d, hd, by rw [hx]; exact ht.code, fun p hp hown => ⟨by rw [hx]; exact ht.product.trans hp, ?_⟩⟩
  have old : (∀ e' ∈ x.exchanges, ∃ e ∈ d.exchanges, e.type = e'.type ∧ e.name = e'.name) →
      ∀ e ∈ d'.exchanges, e.type = .fromTechnosphere → e.name ≠ p := by
    intro ho e he hte
    obtain ⟨y, hy, hye⟩ := forall₂_mem_right hF he
    obtain ⟨z, hz, q1, q2⟩ := ho y hy
    rw [hye.name, ← q2]
    refine hown z hz ?_
    rw [q1, ← hye.type, hte]
  by_cases hm : d.type = .market
  · rcases ht.weigh with ⟨-, g1⟩ | ⟨-, n, a, g2, g3, g4⟩
    · exact Or.inl (old g1)
    · refine Or.inr ⟨hm, ?_⟩
      rw [hp] at g2
      cases g2
      rw [inputTotal_weigh, refSum_weigh, weigh_scaled hF, weigh_scaled hF, g4 _ (by simp), g4 _ (by simp), ← refSum_weigh,
        ← inputTotal_weigh]
      have e1 : inputTotal d p = 0 := by
        unfold inputTotal
        rw [List.filter_eq_nil_iff.mpr]
        · rfl
        · intro e he hh
          have := of_decide_eq_true hh
          exact hown e he this.1 this.2
      have e2 : ((refs d).map (·.amount)).sum = a := by
        have := congrArg (fun l => (l.map Prod.snd).sum) g3
        simpa [refPairs, refs, List.map_map, Function.comp_def] using this
      rw [e1, e2]
      simp [inW, refW]
  · exact Or.inl (old (hs hm).old)

/-! ## C98 -/

/-- C98: a link of the result of the consequential model leads to a dataset of the result whose product has the name of the
linked exchange. Partial: as C95; see `C98_wrong_product`. -/
theorem C98_linked_product_partial (P : PipelineEnv) (data : List Dataset) (out : List Item) (hu : Unlinked data) (hmd : ∀ s, P.md5 s ≠ "")
    (h : runConfig P consequentialConfig data = .ok out) :
    ∃ coded result : List Dataset, runSteps P (consequentialBefore ++ [.addUniqueCodes]) data = .ok (coded.map .ds) ∧ out = result.map .ds ∧
      (∀ d ∈ result, ∀ e ∈ d.exchanges, ∀ c, e.code = some c → RefineryGasSold coded ∨ DistinctInputs coded ∧ e.name ≠ "refinery gas" →
        ∃ t ∈ result, t.code = some c ∧ t.refProduct = some e.name) := by
  obtain ⟨coded, result, h1, h2, h3, hn, h4, h5⟩ := consequential_through hu hmd h
  refine ⟨coded, result, h1, h2, fun d' hd' e' he' c hc hg => ?_⟩
  obtain ⟨loose, hlo, hg'⟩ : ∃ loose, (RefineryGasSold coded ∨ loose = true ∧ DistinctInputs coded) ∧ (loose = true → e'.name ≠ "refinery gas") := by
    rcases hg with hg | ⟨hg, hne⟩
    · exact ⟨false, Or.inl hg, by simp⟩
    · exact ⟨true, Or.inr ⟨rfl, hg⟩, fun _ => hne⟩
  obtain ⟨d, hd, x, ht, -, hgd, k, hk, hx, hF⟩ := h5 loose hlo d' hd'
  obtain ⟨e, he, hee⟩ := forall₂_mem_right hF he'
  have hmem : (c, e.name) ∈ codePairs coded := by
    rcases hgd.exc e he c (by rw [← hee.code, hc]) with h | ⟨h6, h7, -⟩
    · exact h
    · exact absurd (hee.name.trans h7) (hg' h6)
  obtain ⟨t, htm, hcp⟩ := mem_codePairs.mp hmem
  obtain ⟨t', ht', htc⟩ := h4 t htm
  refine ⟨t', ht', htc.trans hcp.1, ?_⟩
  obtain ⟨t0, ht0, y, hty, -, -, _, -, hyx, -⟩ := h5 loose hlo t' ht'
  have hcode : t0.code = t.code := by rw [← hty.code, ← htc, hyx]
  have : t0 = t := List.inj_on_of_nodup_map hn ht0 htm hcode
  have hp : t'.refProduct = y.refProduct := by rw [hyx]
  rw [hp, hty.product, this, hcp.2, hee.name]

/-! ## Examples -/

def exampleGas : List Dataset :=
  [{ name := "steel production", location := "RER", id := "a", filepath := "a.spold", technologyLevel := some "current", startDate := some "2000", endDate := some "2010", exchanges := [{ name := "steel", id := "1", type := .referenceProduct, cls := some .allocatable, amount := 2, pv := some { amount := 100 } }] },
   { name := "market for steel", location := "GLO", type := .market, id := "b", filepath := "b.spold", startDate := some "2000", endDate := some "2010", exchanges := [{ name := "steel", id := "3", type := .referenceProduct, cls := some .allocatable, amount := 1, pv := some { amount := 0 } }] },
   { name := "car production", location := "GLO", id := "c", filepath := "c.spold", technologyLevel := some "current", startDate := some "2000", endDate := some "2010", exchanges := [{ name := "car", id := "4", type := .referenceProduct, cls := some .allocatable, amount := 4, pv := some { amount := 10 } }, { name := "steel", id := "5", type := .fromTechnosphere, amount := 12 }, { name := "refinery gas", id := "6", type := .fromTechnosphere, amount := 8 }] }]

/-- The names of the products that a result offers by code, and the links with the names of the exchanges. -/
def linksOf : Item → Option String × Option String × List (String × Option String)
  | .ds d => (d.code, d.refProduct, d.exchanges.map fun e => (e.name, e.code))
  | .str _ => (none, none, [])

theorem exampleGas_run : (runConfig exampleP cutoffConfig exampleGas).toOption.map (fun l => l.map linksOf) =
    some [(some "steel productionsteelRER20002010", some "steel", [("steel", some "steel productionsteelRER20002010")]), (some "market for steelsteelGLO20002010", some "steel", [("steel", some "market for steelsteelGLO20002010"), ("steel", some "steel productionsteelRER20002010")]), (some "car productioncarGLO20002010", some "car", [("car", some "car productioncarGLO20002010"), ("steel", some "market for steelsteelGLO20002010"), ("refinery gas", some "market for steelsteelGLO20002010")])] := by decide +kernel

/-- C95 fails: the cut-off model can link an input of refinery gas to the market for steel. -/
theorem C95_wrong_product : ∃ (P : PipelineEnv) (data result : List Dataset), Unlinked data ∧ runConfig P cutoffConfig data = .ok (result.map .ds) ∧
    ∃ d ∈ result, ∃ e ∈ d.exchanges, e.name = "refinery gas" ∧ ∃ t ∈ result, t.code.isSome ∧ e.code = t.code ∧ t.refProduct = some "steel" := by
  have hrun := exampleGas_run
  rcases hr : runConfig exampleP cutoffConfig exampleGas with e | out
  · rw [hr] at hrun; cases hrun
  · rw [hr] at hrun
    simp only [Except.toOption, Option.map_some, Option.some.injEq] at hrun
    obtain ⟨start, result, -, rfl, -⟩ := cutoff_codes hr
    refine ⟨exampleP, exampleGas, result, by unfold Unlinked; decide +kernel, hr, ?_⟩
    rw [List.map_map] at hrun
    have m1 : (some "car productioncarGLO20002010", some "car", [("car", some "car productioncarGLO20002010"), ("steel", some "market for steelsteelGLO20002010"), ("refinery gas", some "market for steelsteelGLO20002010")]) ∈ result.map (linksOf ∘ .ds) := by
      rw [hrun]; simp
    have m2 : (some "market for steelsteelGLO20002010", some "steel", [("steel", some "market for steelsteelGLO20002010"), ("steel", some "steel productionsteelRER20002010")]) ∈ result.map (linksOf ∘ .ds) := by
      rw [hrun]; simp
    obtain ⟨d, hd, hde⟩ := List.mem_map.mp m1
    obtain ⟨t, ht, hte⟩ := List.mem_map.mp m2
    have m3 : ("refinery gas", some "market for steelsteelGLO20002010") ∈ d.exchanges.map fun e => (e.name, e.code) := by
      have : d.exchanges.map (fun e => (e.name, e.code)) = _ := congrArg (fun k => k.2.2) hde
      rw [this]; simp
    obtain ⟨e, he, hee⟩ := List.mem_map.mp m3
    have c1 : t.code = some "market for steelsteelGLO20002010" := congrArg (fun k => k.1) hte
    have c2 : t.refProduct = some "steel" := congrArg (fun k => k.2.1) hte
    have e1 : e.name = "refinery gas" := congrArg (fun k => k.1) hee
    have e2 : e.code = some "market for steelsteelGLO20002010" := congrArg (fun k => k.2) hee
    exact ⟨d, hd, e, he, e1, t, ht, by rw [c1]; rfl, by rw [e2, c1], c2⟩

/-- Two inputs of refinery gas are equal; nobody sells it. -/
def exampleLost : List Dataset :=
  [{ name := "iron production", location := "RER", id := "a", filepath := "a.spold", technologyLevel := some "current", startDate := some "2000", endDate := some "2010", exchanges := [{ name := "iron", id := "1", type := .referenceProduct, cls := some .allocatable, amount := 1, pv := some { amount := 100 } }] },
   { name := "iron production", location := "US", id := "b", filepath := "b.spold", technologyLevel := some "current", startDate := some "2000", endDate := some "2010", exchanges := [{ name := "iron", id := "2", type := .referenceProduct, cls := some .allocatable, amount := 1, pv := some { amount := 100 } }] },
   { name := "steel production", location := "RER", id := "c", filepath := "c.spold", technologyLevel := some "current", startDate := some "2000", endDate := some "2010", exchanges := [{ name := "steel", id := "3", type := .referenceProduct, cls := some .allocatable, amount := 1, pv := some { amount := 100 } }] },
   { name := "market for iron", location := "RER", type := .market, id := "d", filepath := "d.spold", startDate := some "2000", endDate := some "2010", exchanges := [{ name := "iron", id := "4", type := .referenceProduct, cls := some .allocatable, amount := 1, pv := some { amount := 0 } }] },
   { name := "market for iron", location := "US", type := .market, id := "e", filepath := "e.spold", startDate := some "2000", endDate := some "2010", exchanges := [{ name := "iron", id := "5", type := .referenceProduct, cls := some .allocatable, amount := 1, pv := some { amount := 0 } }] },
   { name := "market for steel", location := "GLO", type := .market, id := "f", filepath := "f.spold", startDate := some "2000", endDate := some "2010", exchanges := [{ name := "steel", id := "6", type := .referenceProduct, cls := some .allocatable, amount := 1, pv := some { amount := 0 } }] },
   { name := "car production", location := "GLO", id := "g", filepath := "g.spold", technologyLevel := some "current", startDate := some "2000", endDate := some "2010", exchanges := [{ name := "car", id := "7", type := .referenceProduct, cls := some .allocatable, amount := 1, pv := some { amount := 10 } }, { name := "iron", id := "8", type := .fromTechnosphere, amount := 12 }, { name := "refinery gas", id := "9", type := .fromTechnosphere, amount := 8 }, { name := "steel", id := "10", type := .fromTechnosphere, amount := 2 }, { name := "refinery gas", id := "9", type := .fromTechnosphere, amount := 8 }] }]

def exampleP2 : PipelineEnv := { exampleP with T := { data := [("GLO", {1, 2, 3}), ("RER", {1, 2}), ("US", {3})] } }

/-- The inputs of refinery gas of the datasets. -/
def gasOf : Item → ℚ
  | .ds d => inputTotal d "refinery gas"
  | .str _ => 0

/-- Why C93 needs its assumption: the cut-off model loses one of two equal inputs of refinery gas without a market. The other
datasets have none, and the product of the dataset keeps its amount (so the factor would be one). -/
theorem C93_gas_lost : (runSteps exampleP2 (cutoffBefore ++ [.addUniqueCodes]) exampleLost).toOption.map (fun l => l.map gasOf) = some [0, 0, 0, 0, 0, 0, 16] ∧
    (runConfig exampleP2 cutoffConfig exampleLost).toOption.map (fun l => l.map gasOf) = some [0, 0, 0, 0, 0, 0, 8] ∧
    (runConfig exampleP2 consequentialConfig exampleLost).toOption.map (fun l => l.map gasOf) = some [0, 0, 0, 0, 0, 0, 8] := by decide +kernel

/-- The codes of the examples could be made nonempty in all cases. -/
def exampleP' : PipelineEnv := { exampleP with md5 := fun s => "#" ++ s }

example : ∀ s, exampleP'.md5 s ≠ "" := by
  intro s h
  have := congrArg String.length h
  simp [exampleP', String.length_append] at this

def codedOf (P : PipelineEnv) (data : List Dataset) : List Dataset :=
  ((runSteps P (cutoffBefore ++ [.addUniqueCodes]) data).toOption.getD []).filterMap fun i => match i with | .ds d => some d | .str _ => none

/-- The hypotheses of C93, C94 and C95 are met: the model runs, nothing uses refinery gas, and the market has one exchange of its
product. In the result it has an input of it. -/
example : (runConfig exampleP' cutoffConfig exampleInput).toOption.isSome ∧ (codedOf exampleP' exampleInput).length = 3 ∧
    (∀ d ∈ codedOf exampleP' exampleInput, ∀ e ∈ d.exchanges, e.type = .fromTechnosphere → e.name ≠ "refinery gas") ∧
    (∀ d ∈ codedOf exampleP' exampleInput, IsMarket d → d.refProduct = some "steel" ∧ ∀ e ∈ d.exchanges, stripRc e.name = "steel" → e.type = .referenceProduct) ∧
    ¬ rcSuffix.toList <:+: "steel".toList := by decide +kernel

/-- The other alternative: nobody sells refinery gas, one dataset uses it, and the inputs have different ids. -/
example : (runConfig exampleP' cutoffConfig exampleGas).toOption.isSome ∧ (codedOf exampleP' exampleGas).length = 3 ∧
    DistinctInputs (codedOf exampleP' exampleGas) ∧ (∃ d ∈ codedOf exampleP' exampleGas, ∃ e ∈ d.exchanges, e.name = "refinery gas") := by
  unfold DistinctInputs; decide +kernel

/-! The consequential model. -/

theorem exampleGas_consequential : (runConfig exampleP consequentialConfig exampleGas).toOption.map (fun l => l.map linksOf) =
    some [(some "steel productionsteelRER20002010", some "steel", [("steel", none)]), (some "market for steelsteelGLO20002010", some "steel", [("steel", none), ("steel", some "steel productionsteelRER20002010")]), (some "car productioncarGLO20002010", some "car", [("car", none), ("steel", some "market for steelsteelGLO20002010"), ("refinery gas", some "market for steelsteelGLO20002010")])] := by decide +kernel

/-- C98 fails: the consequential model can link an input of refinery gas to the market for steel as well. -/
theorem C98_wrong_product : ∃ (P : PipelineEnv) (data result : List Dataset), Unlinked data ∧ runConfig P consequentialConfig data = .ok (result.map .ds) ∧
    ∃ d ∈ result, ∃ e ∈ d.exchanges, e.name = "refinery gas" ∧ ∃ t ∈ result, t.code.isSome ∧ e.code = t.code ∧ t.refProduct = some "steel" := by
  have hrun := exampleGas_consequential
  rcases hr : runConfig exampleP consequentialConfig exampleGas with e | out
  · rw [hr] at hrun; cases hrun
  · rw [hr] at hrun
    simp only [Except.toOption, Option.map_some, Option.some.injEq] at hrun
    obtain ⟨start, result, -, rfl, -⟩ := consequential_codes hr
    refine ⟨exampleP, exampleGas, result, by unfold Unlinked; decide +kernel, hr, ?_⟩
    rw [List.map_map] at hrun
    have m1 : (some "car productioncarGLO20002010", some "car", [("car", none), ("steel", some "market for steelsteelGLO20002010"), ("refinery gas", some "market for steelsteelGLO20002010")]) ∈ result.map (linksOf ∘ .ds) := by
      rw [hrun]; simp
    have m2 : (some "market for steelsteelGLO20002010", some "steel", [("steel", none), ("steel", some "steel productionsteelRER20002010")]) ∈ result.map (linksOf ∘ .ds) := by
      rw [hrun]; simp
    obtain ⟨d, hd, hde⟩ := List.mem_map.mp m1
    obtain ⟨t, ht, hte⟩ := List.mem_map.mp m2
    have m3 : ("refinery gas", some "market for steelsteelGLO20002010") ∈ d.exchanges.map fun e => (e.name, e.code) := by
      have : d.exchanges.map (fun e => (e.name, e.code)) = _ := congrArg (fun k => k.2.2) hde
      rw [this]; simp
    obtain ⟨e, he, hee⟩ := List.mem_map.mp m3
    have c1 : t.code = some "market for steelsteelGLO20002010" := congrArg (fun k => k.1) hte
    have c2 : t.refProduct = some "steel" := congrArg (fun k => k.2.1) hte
    have e1 : e.name = "refinery gas" := congrArg (fun k => k.1) hee
    have e2 : e.code = some "market for steelsteelGLO20002010" := congrArg (fun k => k.2) hee
    exact ⟨d, hd, e, he, e1, t, ht, by rw [c1]; rfl, by rw [e2, c1], c2⟩

def codedOf' (P : PipelineEnv) (data : List Dataset) : List Dataset :=
  ((runSteps P (consequentialBefore ++ [.addUniqueCodes]) data).toOption.getD []).filterMap fun i => match i with | .ds d => some d | .str _ => none

/-- The hypotheses of C96, C97 and C98 are met: the model runs, nothing uses refinery gas, and the market has no input of its product
before the linking. In the result it has one (shown for the three configurations in `Props/Pipeline.lean`). -/
example : (runConfig exampleP' consequentialConfig exampleInput).toOption.isSome ∧ (codedOf' exampleP' exampleInput).length = 3 ∧
    (∀ d ∈ codedOf' exampleP' exampleInput, ∀ e ∈ d.exchanges, e.type = .fromTechnosphere → e.name ≠ "refinery gas") ∧
    (∀ d ∈ codedOf' exampleP' exampleInput, IsMarket d → d.refProduct = some "steel" ∧ ∀ e ∈ d.exchanges, e.type = .fromTechnosphere → e.name ≠ "steel") := by decide +kernel

end Ocelot
