import Verif.Proofs.Schema

/-! The two models of extraction, with structures (`Model/Extract.lean`) and with dictionaries (`Model/Schema.lean`), agree. -/

namespace Ocelot

/-- The values of `SPECIAL_ACTIVITY_TYPE` as texts. -/
def DsType.text : DsType → String
  | .transforming => "transforming activity"
  | .market => "market activity"
  | .marketGroup => "market group"
  | .other s => s

/-- The values of `INPUT_GROUPS` and `OUTPUT_GROUPS` as texts. -/
def ExcType.text : ExcType → String
  | .referenceProduct => "reference product"
  | .byproduct => "byproduct"
  | .fromTechnosphere => "from technosphere"
  | .fromEnvironment => "from environment"
  | .toEnvironment => "to environment"
  | .droppedProduct => "dropped product"
  | .other s => s

/-- The values of `BYPRODUCT_CLASSIFICATION` as texts. -/
def Cls.text : Cls → String
  | .allocatable => "allocatable product"
  | .waste => "waste"
  | .recyclable => "recyclable"

namespace Spec

/-- A text of the structures: `None` is the empty text. -/
def TextIs (v : Option PyVal) (s : String) : Prop := v = some (.str s) ∨ (v = some .none ∧ s = "")

/-- A key that may be absent. -/
def OptTextIs (v : Option PyVal) (o : Option String) : Prop := v = o.map .str

/-- A key that may be `None`. -/
def AttrIs (v : Option PyVal) (o : Option String) : Prop := v = some (.ofAttr o)

/-- A number that may be absent. -/
def NumIs (v : Option PyVal) (o : Option ℚ) : Prop := v = o.map .float

structure SameUnc (v : PyVal) (u : Unc) : Prop where
  same : ∃ d, v = .dict d ∧ (∃ s l, d.lookup "type" = some (.str s) ∧ u.kind = some (kindOf s) ∧ d.lookup "pedigree matrix" = some (pedigreeVal l) ∧ u.pedigreeInner = some l) ∧
    NumIs (d.lookup "minimum") u.minimum ∧ NumIs (d.lookup "maximum") u.maximum ∧ NumIs (d.lookup "mode") u.mode ∧ NumIs (d.lookup "mean") u.mean ∧ NumIs (d.lookup "mu") u.mu ∧
    NumIs (d.lookup "variance") u.variance ∧ NumIs (d.lookup "variance with pedigree uncertainty") u.variancePed

/-- Both absent, or both there and the same. -/
def SameOpt {α : Type} (R : PyVal → α → Prop) : Option PyVal → Option α → Prop
  | none, none => True
  | some v, some a => R v a
  | _, _ => False

structure SameVolume (v : PyVal) (p : PV) : Prop where
  same : ∃ d, v = .dict d ∧ d.lookup "amount" = some (.float p.amount) ∧ SameOpt SameUnc (d.lookup "uncertainty") p.uncertainty ∧ OptTextIs (d.lookup "formula") p.formula ∧ OptTextIs (d.lookup "variable") p.var

structure SameProperty (v : PyVal) (p : Prop') : Prop where
  same : ∃ d, v = .dict d ∧ TextIs (d.lookup "id") p.id ∧ d.lookup "amount" = some (.float p.amount) ∧ TextIs (d.lookup "name") p.name ∧ TextIs (d.lookup "unit") p.unit ∧
    SameOpt SameUnc (d.lookup "uncertainty") p.uncertainty ∧ OptTextIs (d.lookup "formula") p.formula ∧ OptTextIs (d.lookup "variable") p.var

structure SameParameter (v : PyVal) (p : Param) : Prop where
  same : ∃ d, v = .dict d ∧ TextIs (d.lookup "id") p.id ∧ d.lookup "amount" = some (.float p.amount) ∧ TextIs (d.lookup "name") p.name ∧ TextIs (d.lookup "unit") p.unit ∧
    SameOpt SameUnc (d.lookup "uncertainty") p.uncertainty ∧ OptTextIs (d.lookup "formula") p.formula ∧ OptTextIs (d.lookup "variable") p.var

/-- A list of values and a list of structures. -/
def SameList {α : Type} (R : PyVal → α → Prop) (v : Option PyVal) (l : List α) : Prop := ∃ vs, v = some (.list vs) ∧ List.Forall₂ R vs l

structure SameExchange (v : PyVal) (e : Exchange) : Prop where
  same : ∃ d, v = .dict d ∧ TextIs (d.lookup "id") e.id ∧ d.lookup "tag" = some (.str e.tag) ∧ TextIs (d.lookup "name") e.name ∧ TextIs (d.lookup "unit") e.unit ∧ d.lookup "amount" = some (.float e.amount) ∧
    d.lookup "type" = some (.str e.type.text) ∧ OptTextIs (d.lookup "activity link") e.activityLink ∧ d.lookup "byproduct classification" = e.cls.map (fun c => .str c.text) ∧
    OptTextIs (d.lookup "variable") e.var ∧ OptTextIs (d.lookup "formula") e.formula ∧ SameList SameProperty (d.lookup "properties") e.properties ∧
    (∀ c, e.compartment = some c → TextIs (d.lookup "compartment") c.1 ∧ TextIs (d.lookup "subcompartment") c.2) ∧ (e.compartment = none → d.lookup "compartment" = none ∧ d.lookup "subcompartment" = none) ∧
    SameOpt SameVolume (d.lookup "production volume") e.pv ∧ SameOpt SameUnc (d.lookup "uncertainty") e.uncertainty ∧ d.lookup "conditional exchange" = e.conditional.map .bool

structure SameDataset (v : PyVal) (ds : Dataset) : Prop where
  same : ∃ d, v = .dict d ∧ d.lookup "filepath" = some (.str ds.filepath) ∧ TextIs (d.lookup "id") ds.id ∧ AttrIs (d.lookup "parent") ds.parent ∧ TextIs (d.lookup "name") ds.name ∧ TextIs (d.lookup "location") ds.location ∧
    d.lookup "type" = some (.str ds.type.text) ∧ (d.lookup "technology level") = ds.technologyLevel.map .str ∧ AttrIs (d.lookup "start date") ds.startDate ∧ AttrIs (d.lookup "end date") ds.endDate ∧
    SameList SameParameter (d.lookup "parameters") ds.parameters ∧ SameList SameExchange (d.lookup "exchanges") ds.exchanges ∧
    TextIs (d.lookup "economic scenario") ((ds.extra.lookup "economic scenario").getD "") ∧ TextIs (d.lookup "access restricted") ((ds.extra.lookup "access restricted").getD "") ∧
    AttrIs (d.lookup "dataset author") (ds.extra.lookup "dataset author") ∧ AttrIs (d.lookup "data entry") (ds.extra.lookup "data entry") ∧
    TextIs (d.lookup "ISIC classification") ((ds.extra.lookup "ISIC classification").getD "")

/-- Two computations that end alike: with the same error, or with results that are the same in the given sense. -/
def SameResult {α β : Type} (R : α → β → Prop) : Except Err α → Except Err β → Prop
  | .ok a, .ok b => R a b
  | .error e, .error e' => e = e'
  | _, _ => False

end Spec

open Spec

/-! ## Composition -/

theorem sameResult_bind_same {α β γ : Type} {R : β → γ → Prop} {x : Except Err α} {f : α → Except Err β} {g : α → Except Err γ} (h : ∀ a, x = .ok a → SameResult R (f a) (g a)) :
    SameResult R (x >>= f) (x >>= g) := by
  rcases x with e | a
  · exact rfl
  · exact h a rfl

theorem sameResult_bind {α α' β γ : Type} {Q : α → α' → Prop} {R : β → γ → Prop} {x : Except Err α} {y : Except Err α'} {f : α → Except Err β} {g : α' → Except Err γ} (hxy : SameResult Q x y)
    (h : ∀ a b, Q a b → x = .ok a → y = .ok b → SameResult R (f a) (g b)) : SameResult R (x >>= f) (y >>= g) := by
  rcases x with e | a <;> rcases y with e' | b
  · exact hxy
  · exact hxy.elim
  · exact hxy.elim
  · exact h a b hxy rfl rfl

theorem sameResult_mapE {α β γ : Type} {R : β → γ → Prop} {f : α → Except Err β} {g : α → Except Err γ} (h : ∀ a, SameResult R (f a) (g a)) (l : List α) :
    SameResult (List.Forall₂ R) (mapE f l) (mapE g l) := by
  induction l with
  | nil => exact List.Forall₂.nil
  | cons a l ih =>
    unfold mapE
    exact sameResult_bind (h a) fun b c hbc _ _ => sameResult_bind ih fun bs cs hbcs _ _ => List.Forall₂.cons hbc hbcs

theorem lookup_map_snd {α β : Type} (f : α → β) (l : List (String × α)) (k : String) : (l.map fun p => (p.1, f p.2)).lookup k = (l.lookup k).map f := by
  induction l with
  | nil => rfl
  | cons p l ih =>
    obtain ⟨k', v⟩ := p
    rw [List.map_cons, List.lookup_cons, List.lookup_cons]
    rcases k == k' with _ | _
    · exact ih
    · rfl

/-- Two tables with the same keys and corresponding values. -/
theorem sameTable {α β : Type} (f : α → β) (l : List (String × α)) (l' : List (String × β)) (h : l' = l.map fun p => (p.1, f p.2)) (k : String) :
    SameResult (fun b a => b = f a) (readTable l' k) (readTable l k) := by
  unfold readTable
  rw [h, lookup_map_snd]
  rcases l.lookup k with _ | a
  · exact rfl
  · exact rfl

theorem sameLevel (o : Option String) : getKey (levelTexts.lookup o) = extractLevel o := by
  cases o with
  | none => rfl
  | some s =>
    unfold extractLevel readTable
    congr 1

theorem textIs_ofText (s : String) : TextIs (some (.ofText s)) s := by
  unfold TextIs PyVal.ofText
  split <;> simp_all

theorem textIs_ofAttr (o : Option String) : TextIs (some (.ofAttr o)) (o.getD "") := by
  unfold TextIs PyVal.ofAttr
  cases o <;> simp

theorem textIs_unit (e : Elem) : TextIs (some (unitVal e)) (unitOf e) := by
  unfold unitVal unitOf
  rcases e.child? "unitName" with _ | u
  · exact .inl rfl
  · exact textIs_ofText _

/-! ## Parts -/

theorem dictOf_lookup_last (l : List (String × ℚ)) (k : String) : (dictOf (·.1) (·.2) (l.map fun p => (p.1, PyVal.float p.2))).lookup k = (lastOf l k).map .float := by
  induction l using List.reverseRecOn with
  | nil => rfl
  | append_singleton l p ih =>
    rw [List.map_append, List.map_singleton, dictOf_append_one, lookup_dictSet, ih]
    unfold lastOf
    rw [List.reverse_append, List.reverse_singleton, List.singleton_append]
    obtain ⟨k', q⟩ := p
    by_cases h : k = k'
    · simp [h]
    · have : (k == k') = false := by simpa using h
      rw [List.lookup_cons, this]
      simp [h]

theorem sameUncertainty (X : XmlEnv) (u : Elem) : SameResult SameUnc (uncertaintyVal X u) (extractUncertainty X u) := by
  unfold uncertaintyVal extractUncertainty
  rw [show uncertaintyTable = uncertaintyNames from rfl]
  apply sameResult_bind_same
  intro dist _
  refine sameResult_bind (Q := fun vs qs => vs = qs.map fun p => (p.1, PyVal.float p.2)) ?_ ?_
  · have := sameResult_mapE (R := fun (v : String × PyVal) (q : String × ℚ) => v = (q.1, PyVal.float q.2))
      (f := fun p : String × String => do let v ← X.floatAttr (some p.2); return ((uncertaintyNames.lookup p.1).getD p.1, PyVal.float v))
      (g := fun p : String × String => do let v ← X.floatAttr (some p.2); return ((uncertaintyNames.lookup p.1).getD p.1, v)) (fun a => sameResult_bind_same fun v _ => rfl) dist.attrs
    revert this
    generalize mapE _ dist.attrs = x
    generalize mapE _ dist.attrs = y
    intro this
    rcases x with e | a <;> rcases y with e' | b
    · exact this
    · exact this.elim
    · exact this.elim
    · have h : List.Forall₂ _ a b := this
      show a = _
      clear this
      induction h with
      | nil => rfl
      | cons h1 _ ih => rw [List.map_cons, h1, ih]
  · rintro _ values rfl _ _
    apply sameResult_bind_same
    intro pedigree _
    refine ⟨_, rfl, ⟨dist.tag, _, ?_, rfl, ?_, rfl⟩, ?_⟩
    · rw [lookup_dictSet, if_neg (by decide), lookup_dictSet, if_pos rfl]
    · rw [lookup_dictSet, if_pos rfl]
    · have h : ∀ k, k ≠ "type" → k ≠ "pedigree matrix" → ∀ (a b : PyVal), NumIs ((dictSet "pedigree matrix" a (dictSet "type" b (dictOf (·.1) (·.2) (values.map fun p => (p.1, PyVal.float p.2))))).lookup k) (lastOf values k) := by
        intro k h1 h2 a b
        rw [lookup_dictSet, if_neg h2, lookup_dictSet, if_neg h1, dictOf_lookup_last]
        rfl
      refine ⟨h _ ?_ ?_ _ _, h _ ?_ ?_ _ _, h _ ?_ ?_ _ _, h _ ?_ ?_ _ _, h _ ?_ ?_ _ _, h _ ?_ ?_ _ _, h _ ?_ ?_ _ _⟩ <;> decide

theorem sameOptUncertainty (X : XmlEnv) (e : Elem) (t : String) : SameResult (SameOpt SameUnc) (optUncertaintyVal X e t) (optUncertainty X e t) := by
  unfold optUncertaintyVal optUncertainty
  rcases e.child? t with _ | u
  · exact trivial
  · exact sameResult_bind (sameUncertainty X u) fun a b h _ _ => h

theorem sameVolumeAmount (X : XmlEnv) (e : Elem) : volumeNumber X ((e.get "productionVolumeAmount").getD "") = volumeAmount X e := by
  unfold volumeNumber volumeAmount givenText
  rcases e.get "productionVolumeAmount" with _ | s
  · rfl
  · by_cases h : s = ""
    · subst h; rfl
    · simp [h]

theorem sameVolume (X : XmlEnv) (e : Elem) : SameResult SameVolume (volumeVal X e) (extractVolume X e) := by
  unfold volumeVal extractVolume
  rw [sameVolumeAmount]
  apply sameResult_bind_same
  intro amount _
  apply sameResult_bind (sameOptUncertainty X e _)
  intro a b hab _ _
  refine ⟨_, rfl, ?_⟩
  simp [OptTextIs, lookup_append', lookup_optEntry, lookup_cons_if, hab]

theorem sameProperty (X : XmlEnv) (e : Elem) : SameResult SameProperty (propertyVal X e) (extractProperty X e) := by
  unfold propertyVal extractProperty
  apply sameResult_bind_same
  intro amount _
  apply sameResult_bind_same
  intro name _
  apply sameResult_bind (sameOptUncertainty X e _)
  intro a b hab _ _
  refine ⟨_, rfl, ?_⟩
  simp [OptTextIs, lookup_append', lookup_optEntry, lookup_cons_if, hab, textIs_ofText, textIs_ofAttr, textIs_unit]

theorem sameParameter (X : XmlEnv) (e : Elem) : SameResult SameParameter (parameterVal X e) (extractParameter X e) := by
  unfold parameterVal extractParameter
  apply sameResult_bind_same
  intro name _
  apply sameResult_bind_same
  intro amount _
  apply sameResult_bind (sameOptUncertainty X e _)
  intro a b hab _ _
  refine ⟨_, rfl, ?_⟩
  simp [OptTextIs, lookup_append', lookup_optEntry, lookup_cons_if, hab, textIs_ofText, textIs_ofAttr, textIs_unit]

theorem sameType (e : Elem) : SameResult (fun s t => s = t.text ∧ (t ∈ inputGroups.map (·.2) ∨ t ∈ outputGroups.map (·.2))) (typeVal e) (extractType e) := by
  have key : ∀ (l : List (String × ExcType)) (l' : List (String × String)) (k : String), (l' = l.map fun p => (p.1, p.2.text)) → (∀ p ∈ l, p.2 ∈ inputGroups.map (·.2) ∨ p.2 ∈ outputGroups.map (·.2)) →
      SameResult (fun (s : String) (t : ExcType) => s = t.text ∧ (t ∈ inputGroups.map (·.2) ∨ t ∈ outputGroups.map (·.2))) (readTable l' k) (readTable l k) := by
    intro l l' k h hm
    unfold readTable
    rw [h, lookup_map_snd]
    rcases hl : l.lookup k with _ | a
    · exact rfl
    · exact ⟨rfl, hm _ (mem_of_lookup hl)⟩
  unfold typeVal extractType
  rcases e.child? "inputGroup" with _ | g
  · apply sameResult_bind_same
    intro g _
    exact key _ _ _ rfl fun p hp => .inr (List.mem_map.mpr ⟨p, hp, rfl⟩)
  · exact key _ _ _ rfl fun p hp => .inl (List.mem_map.mpr ⟨p, hp, rfl⟩)

theorem environment_iff {t : ExcType} (h : t ∈ inputGroups.map (·.2) ∨ t ∈ outputGroups.map (·.2)) : hasSubtext "environment" t.text = true ↔ t = .fromEnvironment ∨ t = .toEnvironment := by
  simp only [inputGroups, outputGroups, List.map, List.mem_cons, List.not_mem_nil, or_false] at h
  rcases h with (rfl | rfl | rfl | rfl | rfl) | (rfl | rfl | rfl | rfl | rfl) <;> simp [ExcType.text, hasSubtext]

theorem product_iff {t : ExcType} (h : t ∈ inputGroups.map (·.2) ∨ t ∈ outputGroups.map (·.2)) : (t.text = "reference product" ∨ t.text = "byproduct") ↔ (t = .referenceProduct ∨ t = .byproduct) := by
  simp only [inputGroups, outputGroups, List.map, List.mem_cons, List.not_mem_nil, or_false] at h
  rcases h with (rfl | rfl | rfl | rfl | rfl) | (rfl | rfl | rfl | rfl | rfl) <;> simp [ExcType.text]

theorem sameClassTexts (e : Elem) : classTexts e.children = byproductTexts e := by
  unfold byproductTexts
  induction e.children with
  | nil => rfl
  | cons c l ih =>
    rw [classTexts, List.filter_cons]
    by_cases h : c.tag = "classification"
    · rw [if_pos h, if_pos (by simpa using h), flatMapE, ih]
      rcases c.child "classificationSystem" with e | s
      · rfl
      · show (if s.text = _ then _ else _) = ((if s.text = _ then _ else _) >>= _)
        split
        · rcases c.child "classificationValue" with e | v
          · rfl
          · rfl
        · rcases flatMapE _ _ with e | r
          · rfl
          · rfl
    · rw [if_neg h, if_neg (by simpa using h), ih]

theorem sameClass (e : Elem) : SameResult (fun (s : Option String) (c : Option Cls) => s = c.map Cls.text) (classVal e) (extractClass e) := by
  unfold classVal extractClass
  rw [sameClassTexts]
  apply sameResult_bind_same
  intro texts _
  rcases texts with _ | ⟨t, rest⟩
  · exact rfl
  · have h : (t :: rest).dedup.length < 2 ↔ (rest.all fun s => s == t) = true := by
      constructor
      · intro hlt
        rw [List.all_eq_true]
        intro s hs
        by_contra hne
        have h1 : t ∈ (t :: rest).dedup := List.mem_dedup.mpr (by simp)
        have h2 : s ∈ (t :: rest).dedup := List.mem_dedup.mpr (by simp [hs])
        rcases hd : (t :: rest).dedup with _ | ⟨a, _ | ⟨b, l⟩⟩
        · rw [hd] at h1; cases h1
        · rw [hd] at h1 h2
          simp only [List.mem_singleton] at h1 h2
          simp [h1, h2] at hne
        · rw [hd] at hlt
          simp only [List.length_cons] at hlt
          omega
      · intro hall
        have h1 : (t :: rest).dedup = [t] := by
          apply List.perm_singleton.mp
          rw [List.perm_ext_iff_of_nodup (List.nodup_dedup _) (by simp)]
          intro s
          rw [List.mem_dedup, List.mem_cons, List.mem_singleton]
          constructor
          · rintro (h | h)
            · exact h
            · simpa using List.all_eq_true.mp hall s h
          · exact .inl
        rw [h1]
        simp
    simp only
    by_cases hr : (rest.all fun s => s == t) = true
    · rw [if_pos (h.mpr hr), if_pos hr]
      exact sameResult_bind (sameTable Cls.text byproductTable byproductTexts' rfl t) fun a b hab _ _ => by rw [hab]; rfl
    · rw [if_neg (fun hx => hr (h.mp hx)), if_neg hr]
      exact rfl

theorem sameIsic (desc : Elem) (l : List Elem) : SameResult (fun (v : PyVal) (o : Option String) => TextIs (some v) (o.getD "")) (isicVal l) (extractIsic desc l) := by
  induction l with
  | nil => exact .inr ⟨rfl, rfl⟩
  | cons c l ih =>
    unfold isicVal extractIsic
    split
    · apply sameResult_bind_same
      intro s _
      split
      · exact rfl
      · split
        · apply sameResult_bind_same
          intro v _
          exact textIs_ofText _
        · exact ih
    · exact ih

theorem sameCompartment (e : Elem) {t : ExcType} (ht : t ∈ inputGroups.map (·.2) ∨ t ∈ outputGroups.map (·.2)) :
    SameResult (fun (l : List (String × PyVal)) (o : Option (String × String)) => (∀ k, k ≠ "compartment" → k ≠ "subcompartment" → l.lookup k = none) ∧
      (∀ c, o = some c → TextIs (l.lookup "compartment") c.1 ∧ TextIs (l.lookup "subcompartment") c.2) ∧ (o = none → l = [])) (compartmentVal e t.text) (extractCompartment e t) := by
  unfold compartmentVal extractCompartment
  rw [if_congr (environment_iff ht) rfl rfl]
  split
  · apply sameResult_bind_same
    intro c _
    apply sameResult_bind_same
    intro comp _
    apply sameResult_bind_same
    intro sub _
    refine ⟨?_, ?_, by simp⟩
    · intro k h1 h2
      simp [lookup_cons_if, h1, h2]
    · rintro _ ⟨⟩
      simp [lookup_cons_if, textIs_ofText]
  · exact ⟨by simp, by simp, by simp⟩

theorem sameVolumeFor (X : XmlEnv) (e : Elem) {t : ExcType} (ht : t ∈ inputGroups.map (·.2) ∨ t ∈ outputGroups.map (·.2)) : SameResult (SameOpt SameVolume) (volumeFor X e t.text) (extractVolumeFor X e t) := by
  unfold volumeFor extractVolumeFor
  rw [if_congr (product_iff ht) rfl rfl]
  split
  · exact sameResult_bind (sameVolume X e) fun a b h _ _ => h
  · exact trivial

theorem sameConditional {dsType : DsType} (hd : dsType ∈ activityTypes.map (·.2)) {t : ExcType} (ht : t ∈ inputGroups.map (·.2) ∨ t ∈ outputGroups.map (·.2)) (link : Option String) (amount : ℚ) :
    conditionalVal dsType.text t.text link amount = (conditionalFlag dsType t link amount).map .bool := by
  unfold conditionalVal conditionalFlag
  rw [if_congr (environment_iff ht) rfl rfl]
  split
  · rfl
  · have h1 : (dsType.text == "market activity") = decide (dsType = .market) := by
      simp only [activityTypes, List.map, List.mem_cons, List.not_mem_nil, or_false] at hd
      rcases hd with rfl | rfl | rfl | rfl | rfl | rfl | rfl | rfl | rfl | rfl | rfl <;> decide +kernel
    have h2 : (t.text == "byproduct") = decide (t = .byproduct) := by
      simp only [inputGroups, outputGroups, List.map, List.mem_cons, List.not_mem_nil, or_false] at ht
      rcases ht with (rfl | rfl | rfl | rfl | rfl) | (rfl | rfl | rfl | rfl | rfl) <;> decide +kernel
    rw [h1, h2]
    simp [Bool.and_assoc, Bool.decide_and]

theorem sameExchange (X : XmlEnv) {dsType : DsType} (hd : dsType ∈ activityTypes.map (·.2)) (e : Elem) : SameResult SameExchange (exchangeVal X dsType.text e) (extractExchange X dsType e) := by
  unfold exchangeVal extractExchange
  apply sameResult_bind_same
  intro name _
  apply sameResult_bind_same
  intro unit _
  apply sameResult_bind_same
  intro amount _
  apply sameResult_bind (sameType e)
  rintro _ type ⟨rfl, ht⟩ _ _
  apply sameResult_bind (sameClass e)
  rintro _ cls rfl _ _
  apply sameResult_bind (sameResult_mapE (sameProperty X) _)
  intro vs props hprops _ _
  apply sameResult_bind (sameCompartment e ht)
  intro cv comp hcomp _ _
  apply sameResult_bind (sameVolumeFor X e ht)
  intro pvv pv hpv _ _
  apply sameResult_bind (sameOptUncertainty X e _)
  intro uv unc hunc _ _
  refine ⟨_, rfl, ?_⟩
  obtain ⟨hc1, hc2, hc3⟩ := hcomp
  have hl := fun k h1 h2 => hc1 k h1 h2
  simp [OptTextIs, lookup_append', lookup_optEntry, lookup_cons_if, textIs_ofText, textIs_ofAttr, hc1, hpv, hunc, sameConditional hd ht, Function.comp_def]
  refine ⟨⟨vs, rfl, hprops⟩, fun a b hab => hc2 _ hab, ?_⟩
  intro h
  simp [hc3 h]

theorem sameDataset (X : XmlEnv) (filepath : String) (e : Elem) : SameResult SameDataset (datasetVal X filepath e) (extractDataset X filepath e) := by
  unfold datasetVal extractDataset
  apply sameResult_bind_same; intro desc _
  apply sameResult_bind_same; intro act _
  apply sameResult_bind_same; intro name _
  apply sameResult_bind_same; intro geo _
  apply sameResult_bind_same; intro loc _
  apply sameResult_bind_same; intro typeText _
  apply sameResult_bind (Q := fun s t => s = DsType.text t ∧ t ∈ activityTypes.map (·.2)) (by
    unfold readTable
    rw [show activityTypeTexts = activityTypes.map fun p => (p.1, p.2.text) from rfl, lookup_map_snd]
    rcases hl : activityTypes.lookup typeText with _ | a
    · exact rfl
    · exact ⟨rfl, List.mem_map.mpr ⟨_, mem_of_lookup hl, rfl⟩⟩)
  rintro _ type ⟨rfl, hd⟩ _ _
  apply sameResult_bind_same; intro tech _
  rw [sameLevel]
  apply sameResult_bind_same; intro level _
  apply sameResult_bind_same; intro period _
  apply sameResult_bind_same; intro scenario _
  apply sameResult_bind_same; intro scenarioName _
  apply sameResult_bind_same; intro admin _
  apply sameResult_bind_same; intro publication _
  apply sameResult_bind_same; intro accessText _
  rw [show accessTexts = accessTable from rfl]
  apply sameResult_bind_same; intro access _
  apply sameResult_bind_same; intro flow _
  apply sameResult_bind (sameResult_mapE (sameParameter X) _)
  intro pvs params hparams _ _
  apply sameResult_bind_same; intro entry _
  apply sameResult_bind (sameIsic desc _)
  intro isicv isic hisic _ _
  apply sameResult_bind (sameResult_mapE (sameExchange X hd) _)
  intro evs excs hexcs _ _
  refine ⟨_, rfl, ?_⟩
  have hmeta : ∀ (k : String) (o : Option String), (metaEntry k o).lookup k = o := by
    intro k o
    cases o <;> simp [metaEntry]
  have hmeta' : ∀ (k k' : String) (o : Option String), k' ≠ k → (metaEntry k o).lookup k' = none := by
    intro k k' o h
    have hb : (k' == k) = false := by simpa using h
    cases o with
    | none => rfl
    | some v => rw [metaEntry, List.lookup_cons, hb]; rfl
  have happ : ∀ (a b : List (String × String)) k, (a ++ b).lookup k = (a.lookup k).or (b.lookup k) := fun a b k => List.lookup_append
  have hcons : ∀ (k k' v : String) (l : List (String × String)), List.lookup k' ((k, v) :: l) = if k' = k then some v else l.lookup k' := by
    intro k k' v l
    by_cases h : k' = k
    · simp [h]
    · have : (k' == k) = false := by simpa using h
      rw [List.lookup_cons, this, if_neg h]
  simp [AttrIs, lookup_cons_if, textIs_ofText, textIs_ofAttr, happ, hcons, hmeta, hmeta', hisic]
  exact ⟨⟨pvs, rfl, hparams⟩, ⟨evs, rfl, hexcs⟩, .inl rfl⟩

end Ocelot
