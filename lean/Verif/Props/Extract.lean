import Verif.Model.Extract
import Verif.Props.Framework
import Verif.Props.Pedigree
import Verif.Proofs.Topology
import Mathlib.Data.List.Infix
import Mathlib.Data.List.Sublists

/-! # Properties C67, C82, C83: extraction of ecospold2 files -/

namespace Ocelot

namespace Spec

/-- The name ends in `.spold`, regardless of case. -/
def IsSpold (lower : String → String) (name : String) : Prop := ∃ stem, (lower name).toList = stem ++ ".spold".toList

/-- An attribute that is there and not empty. -/
def Given (el : Elem) (key value : String) : Prop := el.attrs.lookup key = some value ∧ value ≠ ""

/-- The first child with this tag. -/
def FirstChild (el : Elem) (tag : String) (c : Elem) : Prop := ∃ pre post, el.children = pre ++ c :: post ∧ c.tag = tag ∧ ∀ d ∈ pre, d.tag ≠ tag

/-- No child has this tag. -/
def NoChild (el : Elem) (tag : String) : Prop := ∀ d ∈ el.children, d.tag ≠ tag

/-- A stripped attribute: absent if the attribute is absent or empty. -/
def StrippedAttr (X : XmlEnv) (el : Elem) (key : String) (o : Option String) : Prop :=
  (∃ v, Given el key v ∧ o = some (X.strip v)) ∨ ((∀ v, ¬ Given el key v) ∧ o = none)

/-- The type a group stands for. -/
def GroupType (el : Elem) (t : ExcType) : Prop :=
  (∃ g, FirstChild el "inputGroup" g ∧
    ((g.text = "1" ∧ t = .other "materials/fuels") ∨ (g.text = "2" ∧ t = .other "electricity/heat") ∨ (g.text = "3" ∧ t = .other "services") ∨
      (g.text = "4" ∧ t = .fromEnvironment) ∨ (g.text = "5" ∧ t = .fromTechnosphere))) ∨
  (NoChild el "inputGroup" ∧ ∃ g, FirstChild el "outputGroup" g ∧
    ((g.text = "0" ∧ t = .referenceProduct) ∨ (g.text = "2" ∧ t = .byproduct) ∨ (g.text = "3" ∧ t = .other "material for treatment") ∨ (g.text = "4" ∧ t = .toEnvironment) ∨
      (g.text = "5" ∧ t = .other "stock addition")))

def IsEnvironment (t : ExcType) : Prop := t = .fromEnvironment ∨ t = .toEnvironment

/-- The tag contains this text. -/
def TagContains (text : String) (el : Elem) : Prop := ∃ a b, el.tag.toList = a ++ text.toList ++ b

end Spec

open Spec

/-! ## Small facts -/

theorem firstChild_iff {el : Elem} {t : String} {c : Elem} : el.child? t = some c ↔ FirstChild el t c := by
  unfold Elem.child? FirstChild
  rw [List.find?_eq_some_iff_append]
  simp only [beq_iff_eq, Bool.not_eq_eq_eq_not, Bool.not_true, beq_eq_false_iff_ne]
  constructor
  · rintro ⟨h1, pre, post, h2, h3⟩; exact ⟨pre, post, h2, h1, h3⟩
  · rintro ⟨pre, post, h2, h1, h3⟩; exact ⟨h1, pre, post, h2, h3⟩

theorem noChild_iff {el : Elem} {t : String} : el.child? t = none ↔ NoChild el t := by
  unfold Elem.child? NoChild
  rw [List.find?_eq_none]
  simp

theorem child_ok {el : Elem} {t : String} {c : Elem} : el.child t = .ok c ↔ FirstChild el t c := by
  rw [← firstChild_iff]
  unfold Elem.child
  rcases el.child? t with _ | d <;> simp

theorem floatAttr_ok {X : XmlEnv} {o : Option String} {q : ℚ} : X.floatAttr o = .ok q ↔ ∃ s, o = some s ∧ X.float s = some q := by
  unfold XmlEnv.floatAttr
  rcases o with _ | s
  · simp
  · rcases h : X.float s with _ | r <;> simp [h]

theorem givenText_eq (o : Option String) (v : String) : givenText o = some v ↔ o = some v ∧ v ≠ "" := by
  unfold givenText
  split
  · simp only [reduceCtorEq, Option.some.injEq, ne_eq, false_iff, not_and, not_not]
    exact fun h => h.symm
  · next h =>
    constructor
    · intro he
      refine ⟨he, ?_⟩
      rintro rfl
      exact h he
    · exact fun he => he.1

theorem stripped_spec (X : XmlEnv) (el : Elem) (key : String) : StrippedAttr X el key (X.stripped (el.get key)) := by
  unfold StrippedAttr XmlEnv.stripped Given
  have := givenText_eq (el.get key)
  unfold Elem.get at this ⊢
  rcases h : givenText (el.attrs.lookup key) with _ | v
  · refine .inr ⟨?_, rfl⟩
    intro v hv
    rw [(this v).mpr hv] at h
    cases h
  · exact .inl ⟨v, (this v).mp h, rfl⟩

theorem readTable_ok {α : Type} {l : List (String × α)} (hl : (l.map Prod.fst).Nodup) {k : String} {v : α} : readTable l k = .ok v ↔ (k, v) ∈ l := by
  unfold readTable
  rw [getKey_eq_ok, lookup_iff_mem hl]

theorem extractType_ok {el : Elem} {t : ExcType} : extractType el = .ok t ↔ GroupType el t := by
  have hin : ∀ s, readTable inputGroups s = .ok t ↔ ((s = "1" ∧ t = .other "materials/fuels") ∨ (s = "2" ∧ t = .other "electricity/heat") ∨ (s = "3" ∧ t = .other "services") ∨
      (s = "4" ∧ t = .fromEnvironment) ∨ (s = "5" ∧ t = .fromTechnosphere)) := by
    intro s
    rw [readTable_ok (by decide)]
    simp [inputGroups]
  have hout : ∀ s, readTable outputGroups s = .ok t ↔ ((s = "0" ∧ t = .referenceProduct) ∨ (s = "2" ∧ t = .byproduct) ∨ (s = "3" ∧ t = .other "material for treatment") ∨
      (s = "4" ∧ t = .toEnvironment) ∨ (s = "5" ∧ t = .other "stock addition")) := by
    intro s
    rw [readTable_ok (by decide)]
    simp [outputGroups]
  unfold extractType GroupType
  rcases h : el.child? "inputGroup" with _ | g
  · simp only
    have hno := noChild_iff.mp h
    have hnot : ∀ g, ¬ FirstChild el "inputGroup" g := fun g hg => by rw [← firstChild_iff, h] at hg; cases hg
    constructor
    · intro hh
      obtain ⟨g, h1, h2⟩ := bind_eq_ok.mp hh
      exact .inr ⟨hno, g, child_ok.mp h1, (hout _).mp h2⟩
    · rintro (⟨g, hg, _⟩ | ⟨_, g, hg, ht⟩)
      · exact absurd hg (hnot g)
      · rw [child_ok.mpr hg, ebind_ok]
        exact (hout _).mpr ht
  · simp only
    have hg := firstChild_iff.mp h
    rw [hin]
    constructor
    · exact fun hh => .inl ⟨g, hg, hh⟩
    · rintro (⟨g', hg', ht⟩ | ⟨hno, _⟩)
      · rw [← firstChild_iff, h] at hg'
        cases hg'
        exact ht
      · rw [← noChild_iff, h] at hno
        cases hno

theorem extractExchange_ok {X : XmlEnv} {t : DsType} {el : Elem} {e : Exchange} (h : extractExchange X t el = .ok e) :
    ∃ name unit amount type cls props comp pv unc, el.child "name" = .ok name ∧ el.child "unitName" = .ok unit ∧ X.floatAttr (el.get "amount") = .ok amount ∧ extractType el = .ok type ∧
      extractClass el = .ok cls ∧ mapE (extractProperty X) (el.children.filter fun c => c.tag == "property") = .ok props ∧ extractCompartment el type = .ok comp ∧
      extractVolumeFor X el type = .ok pv ∧ optUncertainty X el "uncertainty" = .ok unc ∧
      e = { id := (el.get "id").getD "", tag := el.tag, name := name.text, unit := unit.text, amount := amount, type := type, activityLink := givenText (el.get "activityLinkId"), cls := cls, var := X.stripped (el.get "variableName"), formula := X.stripped (el.get "mathematicalRelation"), properties := props, compartment := comp, pv := pv, uncertainty := unc, conditional := conditionalFlag t type (givenText (el.get "activityLinkId")) amount } := by
  unfold extractExchange at h
  obtain ⟨name, h1, h⟩ := bind_eq_ok.mp h
  obtain ⟨unit, h2, h⟩ := bind_eq_ok.mp h
  obtain ⟨amount, h3, h⟩ := bind_eq_ok.mp h
  obtain ⟨type, h4, h⟩ := bind_eq_ok.mp h
  obtain ⟨cls, h5, h⟩ := bind_eq_ok.mp h
  obtain ⟨props, h6, h⟩ := bind_eq_ok.mp h
  obtain ⟨comp, h7, h⟩ := bind_eq_ok.mp h
  obtain ⟨pv, h8, h⟩ := bind_eq_ok.mp h
  obtain ⟨unc, h9, h⟩ := bind_eq_ok.mp h
  cases h
  exact ⟨name, unit, amount, type, cls, props, comp, pv, unc, h1, h2, h3, h4, h5, h6, h7, h8, h9, rfl⟩

theorem extractDataset_ok {X : XmlEnv} {fp : String} {el : Elem} {ds : Dataset} (h : extractDataset X fp el = .ok ds) :
    ∃ flow, FirstChild el "flowData" flow ∧ ds.filepath = fp ∧
      List.Forall₂ (fun c p => extractParameter X c = .ok p) (flow.children.filter fun c => hasSubtext "parameter" c.tag) ds.parameters ∧
      List.Forall₂ (fun c e => extractExchange X ds.type c = .ok e) (flow.children.filter fun c => hasSubtext "Exchange" c.tag) ds.exchanges := by
  unfold extractDataset at h
  obtain ⟨desc, h1, h⟩ := bind_eq_ok.mp h
  obtain ⟨act, h2, h⟩ := bind_eq_ok.mp h
  obtain ⟨name, h3, h⟩ := bind_eq_ok.mp h
  obtain ⟨geo, h4, h⟩ := bind_eq_ok.mp h
  obtain ⟨loc, h5, h⟩ := bind_eq_ok.mp h
  obtain ⟨typeText, h6, h⟩ := bind_eq_ok.mp h
  obtain ⟨type, h7, h⟩ := bind_eq_ok.mp h
  obtain ⟨tech, h8, h⟩ := bind_eq_ok.mp h
  obtain ⟨level, h9, h⟩ := bind_eq_ok.mp h
  obtain ⟨period, h10, h⟩ := bind_eq_ok.mp h
  obtain ⟨scen, h11, h⟩ := bind_eq_ok.mp h
  obtain ⟨scenName, h12, h⟩ := bind_eq_ok.mp h
  obtain ⟨admin, h13, h⟩ := bind_eq_ok.mp h
  obtain ⟨publ, h14, h⟩ := bind_eq_ok.mp h
  obtain ⟨accessText, h15, h⟩ := bind_eq_ok.mp h
  obtain ⟨access, h16, h⟩ := bind_eq_ok.mp h
  obtain ⟨flow, h17, h⟩ := bind_eq_ok.mp h
  obtain ⟨ps, h18, h⟩ := bind_eq_ok.mp h
  obtain ⟨entry, h19, h⟩ := bind_eq_ok.mp h
  obtain ⟨isic, h20, h⟩ := bind_eq_ok.mp h
  obtain ⟨es, h21, h⟩ := bind_eq_ok.mp h
  cases h
  exact ⟨flow, child_ok.mp h17, rfl, mapE_ok_iff.mp h18, mapE_ok_iff.mp h21⟩

theorem hasSubtext_iff (sub : String) (el : Elem) : hasSubtext sub el.tag = true ↔ TagContains sub el := by
  unfold hasSubtext TagContains
  rw [List.any_eq_true]
  constructor
  · rintro ⟨t, ht, hp⟩
    obtain ⟨a, ha⟩ := (List.mem_tails _ _).mp ht
    obtain ⟨b, hb⟩ := List.isPrefixOf_iff_prefix.mp hp
    exact ⟨a, b, by rw [List.append_assoc, hb, ha]⟩
  · rintro ⟨a, b, h⟩
    exact ⟨sub.toList ++ b, (List.mem_tails _ _).mpr ⟨a, by rw [h, List.append_assoc]⟩, List.isPrefixOf_iff_prefix.mpr ⟨b, rfl⟩⟩

/-! ## C67 -/

/-- **C67**, the exchanges of a dataset: one for each element of the flow data whose tag contains `Exchange`, in the same order, with the name, unit, amount, type, link, variable and formula
that the element gives. -/
theorem C67_exchanges {X : XmlEnv} {fp : String} {el : Elem} {ds : Dataset} (h : extractDataset X fp el = .ok ds) :
    ∃ flow els, FirstChild el "flowData" flow ∧ els.Sublist flow.children ∧ (∀ c ∈ flow.children, c ∈ els ↔ TagContains "Exchange" c) ∧
      List.Forall₂ (fun (c : Elem) (e : Exchange) =>
        (∃ n, FirstChild c "name" n ∧ e.name = n.text) ∧ (∃ u, FirstChild c "unitName" u ∧ e.unit = u.text) ∧ (∃ s, c.attrs.lookup "amount" = some s ∧ X.float s = some e.amount) ∧
        GroupType c e.type ∧ (∀ l, e.activityLink = some l ↔ Given c "activityLinkId" l) ∧ StrippedAttr X c "variableName" e.var ∧ StrippedAttr X c "mathematicalRelation" e.formula) els ds.exchanges := by
  obtain ⟨flow, hflow, _, _, hex⟩ := extractDataset_ok h
  refine ⟨flow, flow.children.filter fun c => hasSubtext "Exchange" c.tag, hflow, List.filter_sublist, ?_, hex.imp ?_⟩
  · intro c hc
    rw [List.mem_filter, hasSubtext_iff]
    exact ⟨fun h => h.2, fun h => ⟨hc, h⟩⟩
  · intro c e he
    obtain ⟨name, unit, amount, type, cls, props, comp, pv, unc, h1, h2, h3, h4, h5, h6, h7, h8, h9, rfl⟩ := extractExchange_ok he
    exact ⟨⟨name, child_ok.mp h1, rfl⟩, ⟨unit, child_ok.mp h2, rfl⟩, floatAttr_ok.mp h3, extractType_ok.mp h4, fun l => givenText_eq _ l, stripped_spec X c _, stripped_spec X c _⟩

/-- **C67**, the flag: an exchange with the environment has none; every other one is flagged conditional exactly when it is a byproduct of negative amount with an activity link in a market. -/
theorem C67_conditional {X : XmlEnv} {fp : String} {el : Elem} {ds : Dataset} (h : extractDataset X fp el = .ok ds) {e : Exchange} (he : e ∈ ds.exchanges) :
    (e.conditional = some true ↔ e.activityLink ≠ none ∧ ds.type = .market ∧ e.type = .byproduct ∧ e.amount < 0) ∧ (e.conditional = none ↔ IsEnvironment e.type) := by
  obtain ⟨flow, _, _, _, hex⟩ := extractDataset_ok h
  obtain ⟨c, _, hc⟩ := forall₂_mem_right hex he
  obtain ⟨name, unit, amount, type, cls, props, comp, pv, unc, h1, h2, h3, h4, h5, h6, h7, h8, h9, rfl⟩ := extractExchange_ok hc
  simp only [conditionalFlag, IsEnvironment]
  by_cases ht : type = .fromEnvironment ∨ type = .toEnvironment
  · simp only [ht, if_true, iff_true, and_true]
    simp only [reduceCtorEq, false_iff, not_and]
    rintro _ _ rfl
    simp at ht
  · simp only [ht, if_false, Option.some.injEq, decide_eq_true_eq, reduceCtorEq, and_true]
    rw [Option.isSome_iff_ne_none]

/-- **C67**, volumes: exactly the reference products and byproducts have a production volume; exactly the exchanges with the environment have compartments. -/
theorem C67_volumes {X : XmlEnv} {fp : String} {el : Elem} {ds : Dataset} (h : extractDataset X fp el = .ok ds) {e : Exchange} (he : e ∈ ds.exchanges) :
    (e.pv ≠ none ↔ e.type = .referenceProduct ∨ e.type = .byproduct) ∧ (e.compartment ≠ none ↔ IsEnvironment e.type) := by
  obtain ⟨flow, _, _, _, hex⟩ := extractDataset_ok h
  obtain ⟨c, _, hc⟩ := forall₂_mem_right hex he
  obtain ⟨name, unit, amount, type, cls, props, comp, pv, unc, h1, h2, h3, h4, h5, h6, h7, h8, h9, rfl⟩ := extractExchange_ok hc
  simp only [IsEnvironment]
  constructor
  · unfold extractVolumeFor at h8
    split at h8
    · next ht =>
      obtain ⟨v, _, hv⟩ := bind_eq_ok.mp h8
      cases hv
      simp [ht]
    · next ht =>
      cases h8
      simp [ht]
  · unfold extractCompartment at h7
    split at h7
    · next ht =>
      obtain ⟨x, _, hv⟩ := bind_eq_ok.mp h7
      obtain ⟨y, _, hv⟩ := bind_eq_ok.mp hv
      obtain ⟨z, _, hv⟩ := bind_eq_ok.mp hv
      cases hv
      simp [ht]
    · next ht =>
      cases h7
      simp [ht]

theorem sublist_eq_filter {β : Type} [DecidableEq β] {l₁ l : List β} (h : l₁.Sublist l) (hl : l.Nodup) : l₁ = l.filter fun a => decide (a ∈ l₁) := by
  induction h with
  | slnil => rfl
  | @cons l₁ l a h ih =>
    rw [List.nodup_cons] at hl
    have ha : a ∉ l₁ := fun hm => hl.1 (h.subset hm)
    rw [List.filter_cons, if_neg (by simpa using ha)]
    exact ih hl.2
  | @cons_cons l₁ l a h ih =>
    rw [List.nodup_cons] at hl
    have hc : (l.filter fun x => decide (x ∈ a :: l₁)) = l.filter fun x => decide (x ∈ l₁) := by
      apply List.filter_congr
      intro x hx
      have : x ≠ a := fun he => hl.1 (he ▸ hx)
      simp [this]
    rw [List.filter_cons, if_pos (by simp), hc, ← ih hl.2]

/-- **C67**, the directory: the datasets of all files whose name ends in .spold, in the order of the listing. -/
theorem C67_directory {α : Type} (E : ExtractEnv α) (d : SrcDir) (hd : d.files.Nodup) (data : List α) :
    extractAll E d = .ok data ↔ ∃ files lists, files.Sublist d.files ∧ (∀ f ∈ d.files, f ∈ files ↔ IsSpold E.lower f.name) ∧
      List.Forall₂ (fun (f : SrcFile) l => E.parse f.name f.content = .ok l) files lists ∧ data = lists.flatten := by
  have hsp : ∀ f : SrcFile, E.isSpold f.name = true ↔ IsSpold E.lower f.name := by
    intro f
    unfold ExtractEnv.isSpold IsSpold
    rw [List.isSuffixOf_iff_suffix]
    exact ⟨fun ⟨a, h⟩ => ⟨a, h.symm⟩, fun ⟨a, h⟩ => ⟨a, h.symm⟩⟩
  unfold extractAll
  rw [flatMapE_ok_iff]
  constructor
  · rintro ⟨lists, h1, h2⟩
    refine ⟨_, lists, List.filter_sublist, ?_, mapE_ok_iff.mp h1, h2⟩
    intro f hf
    rw [List.mem_filter, hsp]
    exact ⟨fun h => h.2, fun h => ⟨hf, h⟩⟩
  · rintro ⟨files, lists, h1, h2, h3, h4⟩
    refine ⟨lists, mapE_ok_iff.mpr ?_, h4⟩
    have : (d.files.filter fun f => E.isSpold f.name) = files := by
      rw [sublist_eq_filter h1 hd]
      apply List.filter_congr
      intro f hf
      rw [Bool.eq_iff_iff, hsp, decide_eq_true_eq, h2 f hf]
    rw [this]
    exact h3

theorem poolFold_ok {α β : Type} {f : α → Except Err β} {xs : List α} {ys : List β} (h : List.Forall₂ (fun x y => f x = .ok y) xs ys) :
    ∀ (order : List ℕ) (table : List (Option β)), table.length = xs.length → ∃ t, foldE (poolStep f xs) table order = .ok t ∧ t.length = xs.length ∧
      ∀ i, i < xs.length → t[i]? = if i ∈ order then some ys[i]? else table[i]?
  | [], table, hl => ⟨table, rfl, hl, fun i _ => by simp⟩
  | k :: order, table, hl => by
    rw [foldE]
    have hlen := h.length_eq
    rcases hk : xs[k]? with _ | x
    · obtain ⟨t, h1, h2, h3⟩ := poolFold_ok h order table hl
      refine ⟨t, ?_, h2, ?_⟩
      · simp only [poolStep, hk, ebind_ok]
        exact h1
      · intro i hi
        rw [h3 i hi]
        have : i ≠ k := by
          rintro rfl
          rw [List.getElem?_eq_none_iff] at hk
          omega
        simp [this]
    · obtain ⟨hlt, hx⟩ := List.getElem?_eq_some_iff.mp hk
      have hy : f x = .ok ys[k] := by
        have := List.forall₂_iff_get.mp h
        have := this.2 k hlt (by omega)
        simpa [← hx] using this
      obtain ⟨t, h1, h2, h3⟩ := poolFold_ok h order (table.set k (some ys[k])) (by rw [List.length_set, hl])
      refine ⟨t, ?_, h2, ?_⟩
      · simp only [poolStep, hk, hy, ebind_ok, epure]
        exact h1
      · intro i hi
        rw [h3 i hi]
        by_cases hm : i ∈ order
        · simp [hm]
        · rw [if_neg hm]
          by_cases he : i = k
          · subst he
            rw [List.getElem?_set_self (by omega), if_pos (by simp)]
            rw [List.getElem?_eq_getElem (by omega)]
          · rw [List.getElem?_set_ne (by omega), if_neg (by simp [he, hm])]

theorem poolFold_all {α β : Type} {f : α → Except Err β} {xs : List α} : ∀ (order : List ℕ) (table t : List (Option β)), foldE (poolStep f xs) table order = .ok t →
    ∀ i ∈ order, ∀ x, xs[i]? = some x → ∃ y, f x = .ok y
  | [], _, _, _, i, hi => by simp at hi
  | k :: order, table, t, h, i, hi => by
    rw [foldE] at h
    obtain ⟨t', h1, h2⟩ := bind_eq_ok.mp h
    intro x hx
    rcases List.mem_cons.mp hi with rfl | hi
    · unfold poolStep at h1
      rw [hx] at h1
      obtain ⟨y, h3, _⟩ := bind_eq_ok.mp h1
      exact ⟨y, h3⟩
    · exact poolFold_all order t' t h2 i hi x hx

/-- **C67**, the worker pool: in whatever order the workers finish the files, the result is the one without workers; and it fails exactly when that fails. -/
theorem C67_pool {α : Type} (E : ExtractEnv α) (d : SrcDir) {order : List ℕ} (horder : order.Perm (List.range (d.files.filter fun f => E.isSpold f.name).length)) (data : List α) :
    extractPool E d order = .ok data ↔ extractAll E d = .ok data := by
  unfold extractPool extractAll
  rw [flatMapE_ok_iff]
  generalize (d.files.filter fun f => E.isSpold f.name) = xs at horder
  have hmem : ∀ i, i ∈ order ↔ i < xs.length := fun i => by rw [horder.mem_iff, List.mem_range]
  have hmain : ∀ ys, List.Forall₂ (fun (x : SrcFile) y => E.parse x.name x.content = .ok y) xs ys → poolMap (fun x : SrcFile => E.parse x.name x.content) xs order = .ok (ys.map some) := by
    intro ys hys
    obtain ⟨t, h1, h2, h3⟩ := poolFold_ok hys order (xs.map fun _ => none) (by simp)
    have : t = ys.map some := by
      apply List.ext_getElem?
      intro i
      by_cases hi : i < xs.length
      · rw [h3 i hi, if_pos ((hmem i).mpr hi), List.getElem?_map]
        have := hys.length_eq
        rw [List.getElem?_eq_getElem (by omega)]
        rfl
      · have := hys.length_eq
        rw [List.getElem?_eq_none_iff.mpr (by omega), List.getElem?_eq_none_iff.mpr (by simp; omega)]
    rw [← this]
    exact h1
  constructor
  · intro h
    obtain ⟨t, h1, h2⟩ := bind_eq_ok.mp h
    have hall := poolFold_all order _ t h1
    obtain ⟨ys, hys⟩ := mapE_ok_of_forall (f := fun x : SrcFile => E.parse x.name x.content) (l := xs) (by
      intro x hx
      obtain ⟨i, hi⟩ := List.mem_iff_getElem?.mp hx
      exact hall i ((hmem i).mpr (List.getElem?_eq_some_iff.mp hi).1) x hi)
    rw [hmain ys (mapE_ok_iff.mp hys)] at h1
    cases h1
    cases h2
    exact ⟨ys, hys, by simp⟩
  · rintro ⟨ys, hys, rfl⟩
    simp only
    rw [hmain ys (mapE_ok_iff.mp hys), ebind_ok]
    simp [pure, Except.pure]

/-! ## C82 -/

/-- Every number of a dataset. -/
def Spec.numbersOf (ds : Dataset) : List NumObj :=
  ds.exchanges.map (·.toNumObj) ++ ds.exchanges.flatMap (fun e => e.properties.map (·.toNumObj)) ++ ds.exchanges.filterMap (fun e => e.pv.map (·.toNumObj)) ++ ds.parameters.map (·.toNumObj)

/-- **C82** is false: no number that extraction returns has its pedigree matrix where the functions on uncertainty look for it; the matrix is inside the uncertainty. -/
theorem C82_never_found {X : XmlEnv} {fp : String} {el : Elem} {ds : Dataset} (h : extractDataset X fp el = .ok ds) {o : NumObj} (ho : o ∈ numbersOf ds) :
    o.pedigree = none ∧ ∀ u, o.uncertainty = some u → u.pedigreeInner ≠ none := by
  obtain ⟨flow, _, _, hpar, hex⟩ := extractDataset_ok h
  have hunc : ∀ {el : Elem} {t : String} {o : Option Unc}, optUncertainty X el t = .ok o → ∀ u, o = some u → u.pedigreeInner ≠ none := by
    intro el t o h u hu
    subst hu
    unfold optUncertainty at h
    split at h
    · cases h
    · obtain ⟨r, h1, h2⟩ := bind_eq_ok.mp h
      cases h2
      unfold extractUncertainty at h1
      obtain ⟨d, _, h1⟩ := bind_eq_ok.mp h1
      obtain ⟨v, _, h1⟩ := bind_eq_ok.mp h1
      obtain ⟨pm, _, h1⟩ := bind_eq_ok.mp h1
      cases h1
      simp
  unfold numbersOf at ho
  simp only [List.mem_append, List.mem_map, List.mem_flatMap, List.mem_filterMap] at ho
  rcases ho with ((⟨e, he, rfl⟩ | ⟨e, he, q, hq, rfl⟩) | ⟨e, he, hpv⟩) | ⟨q, hq, rfl⟩
  · obtain ⟨c, _, hc⟩ := forall₂_mem_right hex he
    obtain ⟨name, unit, amount, type, cls, props, comp, pv, unc, h1, h2, h3, h4, h5, h6, h7, h8, h9, rfl⟩ := extractExchange_ok hc
    exact ⟨rfl, hunc h9⟩
  · obtain ⟨c, _, hc⟩ := forall₂_mem_right hex he
    obtain ⟨name, unit, amount, type, cls, props, comp, pv, unc, h1, h2, h3, h4, h5, h6, h7, h8, h9, rfl⟩ := extractExchange_ok hc
    obtain ⟨c', _, hc'⟩ := forall₂_mem_right (mapE_ok_iff.mp h6) hq
    unfold extractProperty at hc'
    obtain ⟨_, _, hc'⟩ := bind_eq_ok.mp hc'
    obtain ⟨_, _, hc'⟩ := bind_eq_ok.mp hc'
    obtain ⟨_, hu, hc'⟩ := bind_eq_ok.mp hc'
    cases hc'
    exact ⟨rfl, hunc hu⟩
  · obtain ⟨c, _, hc⟩ := forall₂_mem_right hex he
    obtain ⟨name, unit, amount, type, cls, props, comp, pv, unc, h1, h2, h3, h4, h5, h6, h7, h8, h9, rfl⟩ := extractExchange_ok hc
    obtain ⟨v, hv, rfl⟩ := Option.map_eq_some_iff.mp hpv
    simp only at hv
    subst hv
    unfold extractVolumeFor at h8
    split at h8
    · obtain ⟨v', hv', h8⟩ := bind_eq_ok.mp h8
      cases h8
      unfold extractVolume at hv'
      obtain ⟨_, _, hv'⟩ := bind_eq_ok.mp hv'
      obtain ⟨_, hu, hv'⟩ := bind_eq_ok.mp hv'
      cases hv'
      exact ⟨rfl, hunc hu⟩
    · cases h8
  · obtain ⟨c', _, hc'⟩ := forall₂_mem_right hpar hq
    unfold extractParameter at hc'
    obtain ⟨_, _, hc'⟩ := bind_eq_ok.mp hc'
    obtain ⟨_, _, hc'⟩ := bind_eq_ok.mp hc'
    obtain ⟨_, hu, hc'⟩ := bind_eq_ok.mp hc'
    cases hc'
    exact ⟨rfl, hunc hu⟩

/-- **C82** is false: the adjustment of the temporal correlation to another year changes no extracted number. -/
theorem C82_adjustment_does_nothing {X : XmlEnv} {fp : String} {el : Elem} {ds : Dataset} (h : extractDataset X fp el = .ok ds) {o : NumObj} (ho : o ∈ numbersOf ds) (endYear year : Int) :
    adjustPedigreeMatrixTime endYear year o = .ok o := C08_no_matrix endYear year o (C82_never_found h ho).1

/-! ## C83 -/

/-- The first of the known distributions that the element contains. -/
def Spec.FirstDistribution (el : Elem) (label : String) (dist : Elem) : Prop :=
  ∃ pre post, ["lognormal", "normal", "triangular", "beta", "uniform", "undefined", "binomial", "gamma"] = pre ++ label :: post ∧ (∀ l ∈ pre, NoChild el l) ∧ FirstChild el label dist

theorem findDist {el : Elem} {dist : Elem} : ∀ {labels : List String}, labels.findSome? el.child? = some dist → ∃ pre label post, labels = pre ++ label :: post ∧ (∀ l ∈ pre, NoChild el l) ∧ FirstChild el label dist
  | [], h => by simp at h
  | l :: ls, h => by
    rw [List.findSome?_cons] at h
    rcases hc : el.child? l with _ | c
    · rw [hc] at h
      obtain ⟨pre, label, post, h1, h2, h3⟩ := findDist h
      refine ⟨l :: pre, label, post, by rw [h1]; rfl, ?_, h3⟩
      intro x hx
      rcases List.mem_cons.mp hx with rfl | hx
      · exact noChild_iff.mp hc
      · exact h2 x hx
    · rw [hc] at h
      cases h
      exact ⟨[], l, ls, rfl, by simp, firstChild_iff.mp hc⟩

theorem lastOf_eq {X : XmlEnv} {m : String → String} {K A : String} : ∀ {l : List (String × String)} {values : List (String × ℚ)},
    List.Forall₂ (fun p q => q.1 = m p.1 ∧ X.float p.2 = some q.2) l values → (l.map Prod.fst).Nodup → (∀ p ∈ l, m p.1 = K ↔ p.1 = A) → lastOf values K = (l.lookup A).bind X.float
  | [], _, .nil, _, _ => rfl
  | p :: l, _, .cons (b := q) (l₂ := qs) h1 h2, hn, hK => by
    rw [List.map_cons, List.nodup_cons] at hn
    have ih := lastOf_eq h2 hn.2 fun x hx => hK x (by simp [hx])
    unfold lastOf at ih ⊢
    rw [List.reverse_cons, List.lookup_append, ih]
    have hk := hK p (by simp)
    obtain ⟨a, b⟩ := p
    obtain ⟨c, d⟩ := q
    simp only at h1 hk hn
    by_cases ha : a = A
    · subst ha
      have hnone : l.lookup a = none := by
        rw [List.lookup_eq_none_iff]
        intro x hx
        simp only [bne_iff_ne, ne_eq]
        rintro rfl
        exact hn.1 (List.mem_map_of_mem hx)
      rw [hnone]
      have : c = K := h1.1.trans (hk.mpr rfl)
      simp [this, h1.2]
    · have hne : c ≠ K := fun hc => ha (hk.mp (h1.1.symm.trans hc))
      have h3 : (K == c) = false := by simpa using hne.symm
      have h4 : (A == a) = false := by simpa using fun h => ha h.symm
      simp [List.lookup_cons, h3, h4]

theorem renamed_to {K A : String} (k : String) (hk : k ≠ K) (hin : (k, K) ∈ uncertaintyTable ↔ k = A) : (uncertaintyTable.lookup k).getD k = K ↔ k = A := by
  rw [← hin, ← lookup_iff_mem (by decide : (uncertaintyTable.map (·.1)).Nodup)]
  rcases uncertaintyTable.lookup k with _ | v
  · simpa using hk
  · simp

theorem kept {K : String} (k : String) (hnot : K ∉ uncertaintyTable.map (·.2)) (hself : uncertaintyTable.lookup K = none) : (uncertaintyTable.lookup k).getD k = K ↔ k = K := by
  constructor
  · intro h
    rcases hl : uncertaintyTable.lookup k with _ | v
    · rw [hl] at h; exact h
    · rw [hl] at h
      have hv : v = K := h
      subst hv
      exact absurd (List.mem_map_of_mem (f := (·.2)) ((lookup_iff_mem (by decide : (uncertaintyTable.map (·.1)).Nodup)).mp hl)) hnot
  · rintro rfl
    rw [hself]
    rfl

/-- **C83**, kind and values: the distribution is the first of the known ones, and its values are those of the attributes of the ecospold2 format. -/
theorem C83_values {X : XmlEnv} {el : Elem} {u : Unc} (h : extractUncertainty X el = .ok u) :
    ∃ label dist, FirstDistribution el label dist ∧ u.kind = some (match label with
        | "lognormal" => UncKind.lognormal | "normal" => .normal | "triangular" => .triangular | "undefined" => .undefined | "uniform" => .uniform | s => .other s) ∧
      ((dist.attrs.map Prod.fst).Nodup → (∀ k ∈ ["minimum", "maximum", "mode", "mean", "variance with pedigree uncertainty"], k ∉ dist.attrs.map Prod.fst) →
        u.minimum = (dist.attrs.lookup "minValue").bind X.float ∧ u.maximum = (dist.attrs.lookup "maxValue").bind X.float ∧ u.mean = (dist.attrs.lookup "meanValue").bind X.float ∧
        u.mu = (dist.attrs.lookup "mu").bind X.float ∧ u.variance = (dist.attrs.lookup "variance").bind X.float ∧
        u.variancePed = (dist.attrs.lookup "varianceWithPedigreeUncertainty").bind X.float ∧
        ("mostFrequentValue" ∉ dist.attrs.map Prod.fst → u.mode = (dist.attrs.lookup "mostLikelyValue").bind X.float) ∧
        ("mostLikelyValue" ∉ dist.attrs.map Prod.fst → u.mode = (dist.attrs.lookup "mostFrequentValue").bind X.float)) := by
  unfold extractUncertainty at h
  obtain ⟨dist, h1, h⟩ := bind_eq_ok.mp h
  obtain ⟨values, h2, h⟩ := bind_eq_ok.mp h
  obtain ⟨pm, h3, h⟩ := bind_eq_ok.mp h
  cases h
  have hf : distributionLabels.findSome? el.child? = some dist := by
    unfold findDistribution at h1
    split at h1
    · cases h1; assumption
    · cases h1
  obtain ⟨pre, label, post, hl, hpre, hfc⟩ := findDist hf
  have htag : dist.tag = label := by
    obtain ⟨_, _, _, ht, _⟩ := hfc
    exact ht
  refine ⟨label, dist, ⟨pre, post, hl, hpre, hfc⟩, by rw [htag]; rfl, ?_⟩
  intro hn hno
  have hvals : List.Forall₂ (fun p q => q.1 = ((fun k => (uncertaintyTable.lookup k).getD k) p.1) ∧ X.float p.2 = some q.2) dist.attrs values := by
    refine (mapE_ok_iff.mp h2).imp ?_
    intro p q hq
    obtain ⟨v, h4, h5⟩ := bind_eq_ok.mp hq
    cases h5
    obtain ⟨s, hs, hv⟩ := floatAttr_ok.mp h4
    cases hs
    exact ⟨rfl, hv⟩
  have hmem : ∀ p ∈ dist.attrs, p.1 ∈ dist.attrs.map Prod.fst := fun p hp => List.mem_map_of_mem hp
  have hkey : ∀ (K A : String) (bad : List String), (∀ k, k ∉ bad → ((uncertaintyTable.lookup k).getD k = K ↔ k = A)) → (∀ k ∈ bad, k ∉ dist.attrs.map Prod.fst) →
      lastOf values K = (dist.attrs.lookup A).bind X.float := by
    intro K A bad hb hbad
    refine lastOf_eq (m := fun k => (uncertaintyTable.lookup k).getD k) hvals hn ?_
    intro p hp
    exact hb p.1 fun hm => hbad _ hm (hmem p hp)
  have hone : ∀ k ∈ ["minimum", "maximum", "mode", "mean", "variance with pedigree uncertainty"], ∀ k' ∈ [k], k' ∉ dist.attrs.map Prod.fst := by
    intro k hk k' hk'
    rw [List.mem_singleton] at hk'
    subst hk'
    exact hno k' hk
  have hr : ∀ k, k ∉ ["minimum"] → ((uncertaintyTable.lookup k).getD k = "minimum" ↔ k = "minValue") := fun k hk => renamed_to k (by simpa using hk) (by simp [uncertaintyTable])
  have hr2 : ∀ k, k ∉ ["maximum"] → ((uncertaintyTable.lookup k).getD k = "maximum" ↔ k = "maxValue") := fun k hk => renamed_to k (by simpa using hk) (by simp [uncertaintyTable])
  have hr3 : ∀ k, k ∉ ["mean"] → ((uncertaintyTable.lookup k).getD k = "mean" ↔ k = "meanValue") := fun k hk => renamed_to k (by simpa using hk) (by simp [uncertaintyTable])
  have hr4 : ∀ k, k ∉ ["variance with pedigree uncertainty"] → ((uncertaintyTable.lookup k).getD k = "variance with pedigree uncertainty" ↔ k = "varianceWithPedigreeUncertainty") :=
    fun k hk => renamed_to k (by simpa using hk) (by simp [uncertaintyTable])
  have hr5 : ∀ k, k ∉ ([] : List String) → ((uncertaintyTable.lookup k).getD k = "mu" ↔ k = "mu") := fun k _ => kept k (by decide) (by decide)
  have hr6 : ∀ k, k ∉ ([] : List String) → ((uncertaintyTable.lookup k).getD k = "variance" ↔ k = "variance") := fun k _ => kept k (by decide) (by decide)
  have hr7 : ∀ k, k ∉ ["mode", "mostFrequentValue"] → ((uncertaintyTable.lookup k).getD k = "mode" ↔ k = "mostLikelyValue") := by
    intro k hk
    simp only [List.mem_cons, List.not_mem_nil, or_false, not_or] at hk
    exact renamed_to k hk.1 (by simp [uncertaintyTable, hk.2])
  have hr8 : ∀ k, k ∉ ["mode", "mostLikelyValue"] → ((uncertaintyTable.lookup k).getD k = "mode" ↔ k = "mostFrequentValue") := by
    intro k hk
    simp only [List.mem_cons, List.not_mem_nil, or_false, not_or] at hk
    exact renamed_to k hk.1 (by simp [uncertaintyTable, hk.2])
  have htwo : ∀ k, k ∉ dist.attrs.map Prod.fst → ∀ k' ∈ ["mode", k], k' ∉ dist.attrs.map Prod.fst := by
    intro k hk k' hk'
    rcases List.mem_cons.mp hk' with rfl | hk'
    · exact hno _ (by simp)
    · rw [List.mem_singleton] at hk'
      subst hk'
      exact hk
  exact ⟨hkey _ _ _ hr (hone _ (by simp)), hkey _ _ _ hr2 (hone _ (by simp)), hkey _ _ _ hr3 (hone _ (by simp)), hkey _ _ _ hr5 (by simp), hkey _ _ _ hr6 (by simp),
    hkey _ _ _ hr4 (hone _ (by simp)), fun h => hkey _ _ _ hr7 (htwo _ h), fun h => hkey _ _ _ hr8 (htwo _ h)⟩

/-- The five indicators, as attributes and as they are called in the data. -/
def Spec.indicators : List (String × String) :=
  [("reliability", "reliability"), ("completeness", "completeness"), ("temporalCorrelation", "temporal correlation"), ("geographicalCorrelation", "geographical correlation"), ("furtherTechnologyCorrelation", "further technology correlation")]

/-- **C83**, pedigree: the five scores of the matrix; without a matrix all five scores are 5 for lognormal and normal distributions, and there are none for others. -/
theorem C83_pedigree {X : XmlEnv} {el : Elem} {u : Unc} (h : extractUncertainty X el = .ok u) :
    (∀ m, FirstChild el "pedigreeMatrix" m → ∃ pm, u.pedigreeInner = some pm ∧ List.Forall₂ (fun p q => q.1 = p.2 ∧ ∃ s, m.attrs.lookup p.1 = some s ∧ X.int s = some q.2) indicators pm) ∧
    (NoChild el "pedigreeMatrix" → u.pedigreeInner = some (if u.kind = some .lognormal ∨ u.kind = some .normal then indicators.map fun p => (p.2, 5) else [])) := by
  unfold extractUncertainty at h
  obtain ⟨dist, h1, h⟩ := bind_eq_ok.mp h
  obtain ⟨values, h2, h⟩ := bind_eq_ok.mp h
  obtain ⟨pm, h3, h⟩ := bind_eq_ok.mp h
  cases h
  have hk : ∀ s, (kindOf s = .lognormal ↔ s = "lognormal") ∧ (kindOf s = .normal ↔ s = "normal") := by
    intro s
    unfold kindOf
    split <;> simp_all
  unfold extractPedigree at h3
  constructor
  · intro m hm
    rw [firstChild_iff.mpr hm] at h3
    have hf := mapE_ok_iff.mp h3
    have hne : pm ≠ [] := by
      rintro rfl
      have := hf.length_eq
      simp [pedigreeLabelTable] at this
    refine ⟨pm, by simp [hne], hf.imp ?_⟩
    intro p q hq
    obtain ⟨i, h4, h5⟩ := bind_eq_ok.mp hq
    cases h5
    refine ⟨rfl, ?_⟩
    unfold XmlEnv.intAttr Elem.get at h4
    rcases hl : m.attrs.lookup p.1 with _ | s
    · rw [hl] at h4; cases h4
    · rw [hl] at h4
      simp only at h4
      rcases hi : X.int s with _ | j
      · rw [hi] at h4; cases h4
      · rw [hi] at h4; cases h4; exact ⟨s, rfl, hi⟩
  · intro hm
    rw [noChild_iff.mpr hm] at h3
    cases h3
    simp only [true_and, Option.some.injEq, (hk dist.tag).1, (hk dist.tag).2]
    rfl

/-! ## Examples -/

def Spec.exampleXml : XmlEnv := ⟨fun s => if s = "-2" then some (-2) else if s = "3" then some 3 else none, fun s => if s = "4" then some 4 else none, id, fun _ => .error .valueError⟩

def Spec.leaf (tag text : String) : Elem := .mk tag [] text []

def Spec.exampleFile : Elem :=
  .mk "activityDataset" [] ""
    [.mk "activityDescription" [] ""
      [.mk "activity" [("id", "i"), ("specialActivityType", "1")] "" [leaf "activityName" "market for x"], .mk "geography" [] "" [leaf "shortname" "GLO"], .mk "technology" [] "" [],
       .mk "timePeriod" [("startDate", "s"), ("endDate", "e")] "" [], .mk "macroEconomicScenario" [] "" [leaf "name" "BAU"]],
     .mk "flowData" [] ""
      [.mk "intermediateExchange" [("id", "1"), ("amount", "3")] "" [leaf "name" "x", leaf "unitName" "kg", leaf "outputGroup" "0", .mk "uncertainty" [] "" [.mk "lognormal" [("meanValue", "3")] "" []]],
       .mk "intermediateExchange" [("id", "2"), ("amount", "-2"), ("activityLinkId", "t")] "" [leaf "name" "y", leaf "unitName" "kg", leaf "outputGroup" "2"],
       .mk "elementaryExchange" [("id", "3"), ("amount", "3")] "" [leaf "name" "co2", leaf "unitName" "kg", leaf "outputGroup" "4", .mk "compartment" [] "" [leaf "compartment" "air", leaf "subcompartment" "urban"]],
       .mk "parameter" [("parameterId", "p"), ("amount", "3"), ("variableName", "v")] "" [leaf "name" "p"]],
     .mk "administrativeInformation" [] "" [.mk "dataEntryBy" [] "" [], .mk "dataGeneratorAndPublication" [("accessRestrictedTo", "1")] "" []]]

example : ∃ ds, extractDataset exampleXml "f" exampleFile = .ok ds ∧ ds.exchanges.map (·.conditional) = [some false, some true, none] ∧ ds.exchanges.map (·.type) = [.referenceProduct, .byproduct, .toEnvironment] ∧
    ds.exchanges.map (fun e => e.pv.isSome) = [true, true, false] ∧ ds.technologyLevel = some "undefined" ∧ ds.parameters.length = 1 ∧
    ds.exchanges.map (fun e => e.uncertainty.bind (·.mean)) = [some 3, none, none] := by
  refine ⟨_, rfl, ?_⟩
  decide +kernel

end Ocelot
