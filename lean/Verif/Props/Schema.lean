import Verif.Proofs.SchemaAgree

/-!
# C103, C104: the internal data format

C103 says which ecospold2 datasets are extracted to data that satisfy the internal schema; C104 what `validate_directory` reports.
-/

namespace Ocelot

namespace Spec

/-- For each distribution the names of its values: those it must have, and those it may have. -/
def distributionNames : List (String × List String × List String) :=
  [("beta", ["maximum", "minimum", "mode"], []), ("binomial", ["n", "p"], []), ("gamma", ["scale", "shape"], []),
    ("lognormal", ["mean", "variance with pedigree uncertainty"], ["mu", "variance"]), ("normal", ["mean", "variance with pedigree uncertainty"], ["variance"]),
    ("triangular", ["maximum", "minimum", "mode"], []), ("undefined", ["maximum", "minimum", "standard deviation 95%"], []), ("uniform", ["maximum", "minimum"], [])]

/-- The distribution has all values that it must have, and no others than it may have. -/
def ValidUncertainty (u : Elem) : Prop :=
  ∃ dist, findDistribution u = .ok dist ∧ ∃ must may, (dist.tag, must, may) ∈ distributionNames ∧ (∀ k ∈ must, ∃ a ∈ dist.attrs, valueName a.1 = k) ∧
    ∀ a ∈ dist.attrs, valueName a.1 ∈ must ∨ valueName a.1 ∈ may ∨ valueName a.1 = "type" ∨ valueName a.1 = "pedigree matrix"

/-- The element has a child with this tag and a text. -/
def HasText (e : Elem) (t : String) : Prop := ∃ c, e.child? t = some c ∧ c.text ≠ ""

/-- The unit may be absent, but not empty. -/
def ValidUnit (e : Elem) : Prop := ∀ c, e.child? "unitName" = some c → c.text ≠ ""

/-- The uncertainty may be absent. -/
def UncertaintyOk (e : Elem) (t : String) : Prop := ∀ u, e.child? t = some u → ValidUncertainty u

structure ValidProperty (e : Elem) : Prop where
  id : (e.get "propertyId").isSome = true
  name : HasText e "name"
  unit : ValidUnit e
  uncertainty : UncertaintyOk e "uncertainty"

structure ValidParameter (e : Elem) : Prop where
  id : (e.get "parameterId").isSome = true
  name : HasText e "name"
  unit : ValidUnit e
  uncertainty : UncertaintyOk e "uncertainty"

/-- The exchange is in one of the input groups, or it has no input group and is in one of the output groups. -/
def InGroup (e : Elem) (inputs outputs : List String) : Prop :=
  (∃ g, e.child? "inputGroup" = some g ∧ g.text ∈ inputs) ∨ (e.child? "inputGroup" = none ∧ ∃ g, e.child? "outputGroup" = some g ∧ g.text ∈ outputs)

/-- What only elementary exchanges have, and what they do not have. -/
structure ValidElementary (e : Elem) : Prop where
  group : InGroup e ["4"] ["4"]
  tag : e.tag = "elementaryExchange"
  compartment : ∃ c, e.child? "compartment" = some c ∧ HasText c "compartment" ∧ HasText c "subcompartment"
  noLink : givenText (e.get "activityLinkId") = none
  noClass : ∀ c ∈ e.children, c.tag = "classification" → ∀ s, c.child? "classificationSystem" = some s → s.text ≠ "By-product classification"

/-- What only intermediate exchanges have. -/
structure ValidIntermediate (e : Elem) : Prop where
  group : InGroup e ["5"] ["0", "2"]
  tag : e.tag = "intermediateExchange"
  volume : InGroup e [] ["0", "2"] → UncertaintyOk e "productionVolumeUncertainty"

structure ValidExchange (e : Elem) : Prop where
  id : (e.get "id").isSome = true
  name : HasText e "name"
  unit : HasText e "unitName"
  properties : ∀ c ∈ e.children, c.tag = "property" → ValidProperty c
  uncertainty : UncertaintyOk e "uncertainty"
  kind : ValidElementary e ∨ ValidIntermediate e

/-- A classification of the activity by ISIC. -/
def IsIsic (c : Elem) : Prop := "classification".toList <:+: c.tag.toList ∧ ∃ s, c.child? "classificationSystem" = some s ∧ "ISIC".toList <:+: s.text.toList

/-- The activity has a classification by ISIC, and the first one has a value. -/
def HasIsic (desc : Elem) : Prop := ∃ before c after, desc.children = before ++ c :: after ∧ (∀ b ∈ before, ¬ IsIsic b) ∧ IsIsic c ∧ HasText c "classificationValue"

/-- The child of a child. -/
def descendant? (e : Elem) : List String → Option Elem
  | [] => some e
  | t :: path => (e.child? t).bind fun c => descendant? c path

/-- What a dataset must have to satisfy the internal schema once it is extracted. -/
structure ValidDataset (e : Elem) : Prop where
  id : ((descendant? e ["activityDescription", "activity"]).bind (·.get "id")).isSome = true
  name : ∃ c, descendant? e ["activityDescription", "activity"] = some c ∧ HasText c "activityName"
  location : ∃ c, descendant? e ["activityDescription", "geography"] = some c ∧ HasText c "shortname"
  scenario : ∃ c, descendant? e ["activityDescription", "macroEconomicScenario"] = some c ∧ HasText c "name"
  start : ((descendant? e ["activityDescription", "timePeriod"]).bind (·.get "startDate")).isSome = true
  stop : ((descendant? e ["activityDescription", "timePeriod"]).bind (·.get "endDate")).isSome = true
  author : ((descendant? e ["administrativeInformation", "dataGeneratorAndPublication"]).bind (·.get "personName")).isSome = true
  entry : ((descendant? e ["administrativeInformation", "dataEntryBy"]).bind (·.get "personName")).isSome = true
  isic : ∃ c, e.child? "activityDescription" = some c ∧ HasIsic c
  parameters : ∃ c, e.child? "flowData" = some c ∧ ∀ p ∈ c.children, "parameter".toList <:+: p.tag.toList → ValidParameter p
  exchanges : ∃ c, e.child? "flowData" = some c ∧ ∀ p ∈ c.children, "Exchange".toList <:+: p.tag.toList → ValidExchange p

end Spec

open Spec

/-! ## Parts -/

theorem validUncertainty_iff {X : XmlEnv} {u : Elem} {v : PyVal} (h : uncertaintyVal X u = .ok v) : validUncertainty.accepts v = true ↔ ValidUncertainty u := by
  obtain ⟨dist, d, hdist, rfl, hd⟩ := uncertaintyVal_isDistribution h
  have key : ∀ (t : String) (req opts : List String) (l : List (String × Bool × Sch)),
      (∀ f, f ∈ l ↔ f = need "pedigree matrix" validPedigree ∨ f = need "type" (.lit t) ∨ (∃ k ∈ req, f = need k .float) ∨ ∃ k ∈ opts, f = opt k .float) →
      ("type" ∉ req ∧ "pedigree matrix" ∉ req) → ("type" ∉ opts ∧ "pedigree matrix" ∉ opts) →
      ((Sch.record l).accepts (.dict d) = true ↔ dist.tag = t ∧ (∀ k ∈ req, ∃ a ∈ dist.attrs, valueName a.1 = k) ∧
        ∀ a ∈ dist.attrs, valueName a.1 ∈ req ∨ valueName a.1 ∈ opts ∨ valueName a.1 = "type" ∨ valueName a.1 = "pedigree matrix") := by
    intro t req opts l hl h1 h2
    rw [accepts_distribution hd hl h1 h2]
    simp only [List.mem_map, forall_exists_index, and_imp, forall_apply_eq_imp_iff₂]
  have hbeta := key "beta" ["maximum", "minimum", "mode"] [] [need "maximum" .float, need "minimum" .float, need "mode" .float, need "pedigree matrix" validPedigree, need "type" (.lit "beta")] (by intro f; simp; grind) (by decide) (by decide)
  have hbin := key "binomial" ["n", "p"] [] [need "n" .float, need "p" .float, need "pedigree matrix" validPedigree, need "type" (.lit "binomial")] (by intro f; simp; grind) (by decide) (by decide)
  have hgam := key "gamma" ["scale", "shape"] [] [need "pedigree matrix" validPedigree, need "scale" .float, need "shape" .float, need "type" (.lit "gamma")] (by intro f; simp; grind) (by decide) (by decide)
  have hlog := key "lognormal" ["mean", "variance with pedigree uncertainty"] ["mu", "variance"] [need "mean" .float, need "pedigree matrix" validPedigree, need "type" (.lit "lognormal"), need "variance with pedigree uncertainty" .float, opt "mu" .float, opt "variance" .float] (by intro f; simp; grind) (by decide) (by decide)
  have hnor := key "normal" ["mean", "variance with pedigree uncertainty"] ["variance"] [need "mean" .float, need "pedigree matrix" validPedigree, need "type" (.lit "normal"), need "variance with pedigree uncertainty" .float, opt "variance" .float] (by intro f; simp; grind) (by decide) (by decide)
  have htri := key "triangular" ["maximum", "minimum", "mode"] [] [need "maximum" .float, need "minimum" .float, need "mode" .float, need "pedigree matrix" validPedigree, need "type" (.lit "triangular")] (by intro f; simp; grind) (by decide) (by decide)
  have hund := key "undefined" ["maximum", "minimum", "standard deviation 95%"] [] [need "maximum" .float, need "minimum" .float, need "pedigree matrix" validPedigree, need "standard deviation 95%" .float, need "type" (.lit "undefined")] (by intro f; simp; grind) (by decide) (by decide)
  have huni := key "uniform" ["maximum", "minimum"] [] [need "maximum" .float, need "minimum" .float, need "pedigree matrix" validPedigree, need "type" (.lit "uniform")] (by intro f; simp; grind) (by decide) (by decide)
  rw [validUncertainty, accepts_anyOf, List.any_eq_true]
  constructor
  · rintro ⟨s, hs, ha⟩
    simp only [List.mem_cons, List.not_mem_nil, or_false] at hs
    refine ⟨dist, hdist, ?_⟩
    rcases hs with rfl | rfl | rfl | rfl | rfl | rfl | rfl | rfl
    · obtain ⟨ht, h1, h2⟩ := hbeta.mp ha
      exact ⟨["maximum", "minimum", "mode"], [], by rw [ht]; simp [distributionNames], h1, h2⟩
    · obtain ⟨ht, h1, h2⟩ := hbin.mp ha
      exact ⟨["n", "p"], [], by rw [ht]; simp [distributionNames], h1, h2⟩
    · obtain ⟨ht, h1, h2⟩ := hgam.mp ha
      exact ⟨["scale", "shape"], [], by rw [ht]; simp [distributionNames], h1, h2⟩
    · obtain ⟨ht, h1, h2⟩ := hlog.mp ha
      exact ⟨["mean", "variance with pedigree uncertainty"], ["mu", "variance"], by rw [ht]; simp [distributionNames], h1, h2⟩
    · obtain ⟨ht, h1, h2⟩ := hnor.mp ha
      exact ⟨["mean", "variance with pedigree uncertainty"], ["variance"], by rw [ht]; simp [distributionNames], h1, h2⟩
    · obtain ⟨ht, h1, h2⟩ := htri.mp ha
      exact ⟨["maximum", "minimum", "mode"], [], by rw [ht]; simp [distributionNames], h1, h2⟩
    · obtain ⟨ht, h1, h2⟩ := hund.mp ha
      exact ⟨["maximum", "minimum", "standard deviation 95%"], [], by rw [ht]; simp [distributionNames], h1, h2⟩
    · obtain ⟨ht, h1, h2⟩ := huni.mp ha
      exact ⟨["maximum", "minimum"], [], by rw [ht]; simp [distributionNames], h1, h2⟩
  · rintro ⟨dist', hdist', must, may, hm, h1, h2⟩
    rw [hdist] at hdist'
    cases hdist'
    simp only [distributionNames, List.mem_cons, Prod.mk.injEq, List.not_mem_nil, or_false] at hm
    rcases hm with ⟨ht, rfl, rfl⟩ | ⟨ht, rfl, rfl⟩ | ⟨ht, rfl, rfl⟩ | ⟨ht, rfl, rfl⟩ | ⟨ht, rfl, rfl⟩ | ⟨ht, rfl, rfl⟩ | ⟨ht, rfl, rfl⟩ | ⟨ht, rfl, rfl⟩
    · exact ⟨validBeta, by simp, hbeta.mpr ⟨ht, h1, h2⟩⟩
    · exact ⟨validBinomial, by simp, hbin.mpr ⟨ht, h1, h2⟩⟩
    · exact ⟨validGamma, by simp, hgam.mpr ⟨ht, h1, h2⟩⟩
    · exact ⟨validLognormal, by simp, hlog.mpr ⟨ht, h1, h2⟩⟩
    · exact ⟨validNormal, by simp, hnor.mpr ⟨ht, h1, h2⟩⟩
    · exact ⟨validTriangular, by simp, htri.mpr ⟨ht, h1, h2⟩⟩
    · exact ⟨validUndefined, by simp, hund.mpr ⟨ht, h1, h2⟩⟩
    · exact ⟨validUniform, by simp, huni.mpr ⟨ht, h1, h2⟩⟩

theorem uncertaintyOk_iff {X : XmlEnv} {e : Elem} {t : String} {o : Option PyVal} (h : optUncertaintyVal X e t = .ok o) : (∀ x, o = some x → validUncertainty.accepts x = true) ↔ UncertaintyOk e t := by
  unfold optUncertaintyVal at h
  unfold UncertaintyOk
  split at h
  · next hn => cases h; simp [hn]
  · next u hu =>
    obtain ⟨r, hr, h⟩ := bind_eq_ok.mp h
    cases h
    rw [hu]
    simp [validUncertainty_iff hr]

theorem accepts_str_unitVal (e : Elem) : Sch.str.accepts (unitVal e) = true ↔ ValidUnit e := by
  unfold unitVal ValidUnit
  split
  · next u hu => simp [hu]
  · next hn => simp [hn, Sch.accepts]

theorem hasText_of_child {e c : Elem} {t : String} (h : e.child t = .ok c) : HasText e t ↔ c.text ≠ "" := by
  unfold Elem.child at h
  unfold HasText
  split at h
  · next c' hc => cases h; simp [hc]
  · cases h

@[simp] theorem accepts_float (q : ℚ) : Sch.float.accepts (.float q) = true := rfl
@[simp] theorem accepts_str (s : String) : Sch.str.accepts (.str s) = true := rfl
@[simp] theorem accepts_bool (b : Bool) : Sch.bool.accepts (.bool b) = true := rfl

theorem map_str_accepts {o : Option String} : ∀ x, o.map PyVal.str = some x → Sch.str.accepts x = true := by
  intro x hx
  cases o with
  | none => cases hx
  | some s => cases hx; rfl

theorem validProperty_iff {X : XmlEnv} {e : Elem} {v : PyVal} (h : propertyVal X e = .ok v) : validProperty.accepts v = true ↔ ValidProperty e := by
  unfold propertyVal at h
  obtain ⟨amount, _, h⟩ := bind_eq_ok.mp h
  obtain ⟨name, hname, h⟩ := bind_eq_ok.mp h
  obtain ⟨unc, hunc, h⟩ := bind_eq_ok.mp h
  cases h
  rw [validProperty, accepts_record]
  have h1 := uncertaintyOk_iff hunc
  have h2 := hasText_of_child hname
  constructor
  · rintro ⟨_, hf⟩
    simp [FieldOk, need, opt, lookup_append', lookup_optEntry, lookup_cons_if, accepts_str_unitVal, ← h2, h1] at hf
    exact ⟨hf.1, hf.2.1, hf.2.2.1, hf.2.2.2⟩
  · intro hv
    constructor
    · intro p hp
      simp [mem_optEntry] at hp
      simp only [List.map, need, opt]
      rcases hp with rfl | rfl | rfl | rfl | ⟨_, _, rfl⟩ | ⟨_, _, rfl⟩ | ⟨_, _, rfl⟩ <;> simp
    · simp [FieldOk, need, opt, lookup_append', lookup_optEntry, lookup_cons_if, accepts_str_unitVal, ← h2, h1, hv.id, hv.name, hv.unit, hv.uncertainty]

theorem validParameter_iff {X : XmlEnv} {e : Elem} {v : PyVal} (h : parameterVal X e = .ok v) : validParameter.accepts v = true ↔ ValidParameter e := by
  unfold parameterVal at h
  obtain ⟨name, hname, h⟩ := bind_eq_ok.mp h
  obtain ⟨amount, _, h⟩ := bind_eq_ok.mp h
  obtain ⟨unc, hunc, h⟩ := bind_eq_ok.mp h
  cases h
  rw [validParameter, accepts_record]
  have h1 := uncertaintyOk_iff hunc
  have h2 := hasText_of_child hname
  constructor
  · rintro ⟨_, hf⟩
    simp [FieldOk, opt, lookup_append', lookup_optEntry, lookup_cons_if, accepts_str_unitVal, ← h2, h1] at hf
    exact ⟨hf.2.1, hf.2.2.1, hf.1, hf.2.2.2⟩
  · intro hv
    constructor
    · intro p hp
      simp [mem_optEntry] at hp
      simp only [List.map, opt]
      rcases hp with rfl | rfl | rfl | rfl | ⟨_, _, rfl⟩ | ⟨_, _, rfl⟩ | ⟨_, _, rfl⟩ <;> simp
    · simp [FieldOk, opt, lookup_append', lookup_optEntry, lookup_cons_if, accepts_str_unitVal, ← h2, h1, hv.id, hv.name, hv.unit, hv.uncertainty]

theorem validVolume_iff {X : XmlEnv} {e : Elem} {v : PyVal} (h : volumeVal X e = .ok v) : validProductionVolume.accepts v = true ↔ UncertaintyOk e "productionVolumeUncertainty" := by
  unfold volumeVal at h
  obtain ⟨amount, _, h⟩ := bind_eq_ok.mp h
  obtain ⟨unc, hunc, h⟩ := bind_eq_ok.mp h
  cases h
  rw [validProductionVolume, accepts_record]
  have h1 := uncertaintyOk_iff hunc
  constructor
  · rintro ⟨_, hf⟩
    simp [FieldOk, need, opt, lookup_append', lookup_optEntry, lookup_cons_if, h1] at hf
    exact hf
  · intro hv
    constructor
    · intro p hp
      simp [mem_optEntry] at hp
      simp only [List.map, need, opt]
      rcases hp with rfl | ⟨_, _, rfl⟩ | ⟨_, _, rfl⟩ | ⟨_, _, rfl⟩ <;> simp
    · simp [FieldOk, need, opt, lookup_append', lookup_optEntry, lookup_cons_if, h1, hv]

/-! ## Exchanges -/

theorem inGroup_of_type {e : Elem} {t : String} (h : typeVal e = .ok t) :
    (InGroup e ["4"] ["4"] ↔ hasSubtext "environment" t = true) ∧ (InGroup e ["5"] ["0", "2"] ↔ t ∈ ["from technosphere", "reference product", "byproduct"]) ∧
      (InGroup e [] ["0", "2"] ↔ t = "reference product" ∨ t = "byproduct") ∧ (t ∈ inputGroupTexts.map (·.2) ∨ t ∈ outputGroupTexts.map (·.2)) := by
  unfold typeVal at h
  unfold InGroup
  split at h
  · next g hg =>
    have hm := mem_of_lookup (getKey_eq_ok.mp h)
    have hm' := hm
    simp only [inputGroupTexts, List.mem_cons, Prod.mk.injEq, List.not_mem_nil, or_false] at hm
    rw [hg]
    refine ⟨?_, ?_, ?_, .inl (List.mem_map.mpr ⟨_, hm', rfl⟩)⟩ <;> rcases hm with ⟨hx, rfl⟩ | ⟨hx, rfl⟩ | ⟨hx, rfl⟩ | ⟨hx, rfl⟩ | ⟨hx, rfl⟩ <;> simp [hx, hasSubtext]
  · next hn =>
    obtain ⟨g, hg, h⟩ := bind_eq_ok.mp h
    have hm := mem_of_lookup (getKey_eq_ok.mp h)
    have hm' := hm
    have hg' : e.child? "outputGroup" = some g := by
      unfold Elem.child at hg
      split at hg
      · next h => cases hg; exact h
      · cases hg
    simp only [outputGroupTexts, List.mem_cons, Prod.mk.injEq, List.not_mem_nil, or_false] at hm
    rw [hn, hg']
    refine ⟨?_, ?_, ?_, .inr (List.mem_map.mpr ⟨_, hm', rfl⟩)⟩ <;> rcases hm with ⟨hx, rfl⟩ | ⟨hx, rfl⟩ | ⟨hx, rfl⟩ | ⟨hx, rfl⟩ | ⟨hx, rfl⟩ <;> simp [hx, hasSubtext]

theorem child?_of_child {e c : Elem} {t : String} (h : e.child t = .ok c) : e.child? t = some c := by
  unfold Elem.child at h
  split at h
  · next h' => cases h; exact h'
  · cases h

theorem classTexts_nil_iff {l : List Elem} {r : List String} (h : classTexts l = .ok r) :
    r = [] ↔ ∀ c ∈ l, c.tag = "classification" → ∀ s, c.child? "classificationSystem" = some s → s.text ≠ "By-product classification" := by
  induction l generalizing r with
  | nil => cases h; simp
  | cons c l ih =>
    rw [List.forall_mem_cons]
    unfold classTexts at h
    split at h
    · next ht =>
      obtain ⟨s, hs, h⟩ := bind_eq_ok.mp h
      split at h
      · next hb =>
        obtain ⟨v, _, h⟩ := bind_eq_ok.mp h
        obtain ⟨more, _, h⟩ := bind_eq_ok.mp h
        cases h
        simp only [reduceCtorEq, false_iff, not_and]
        intro h1
        exact absurd hb (h1 ht s (child?_of_child hs))
      · next hb =>
        rw [ih h]
        refine ⟨fun h2 => ⟨fun _ s' hs' => ?_, h2⟩, fun h2 => h2.2⟩
        rw [child?_of_child hs] at hs'
        cases hs'
        exact hb
    · next ht =>
      rw [ih h]
      exact ⟨fun h2 => ⟨fun h3 => absurd h3 ht, h2⟩, fun h2 => h2.2⟩

theorem noClass_iff {e : Elem} {cls : Option String} (h : classVal e = .ok cls) :
    (cls = none ↔ ∀ c ∈ e.children, c.tag = "classification" → ∀ s, c.child? "classificationSystem" = some s → s.text ≠ "By-product classification") ∧
      ∀ x, cls = some x → validByproducts.accepts (.str x) = true := by
  unfold classVal at h
  obtain ⟨texts, ht, h⟩ := bind_eq_ok.mp h
  rw [← classTexts_nil_iff ht]
  split at h
  · rcases texts with _ | ⟨t, rest⟩
    · cases h; simp
    · obtain ⟨c, hc, h⟩ := bind_eq_ok.mp h
      cases h
      refine ⟨by simp, ?_⟩
      rintro x ⟨⟩
      have hm := mem_of_lookup (getKey_eq_ok.mp hc)
      rw [validByproducts, accepts_oneOf]
      simp only [byproductTexts', List.mem_cons, Prod.mk.injEq, List.not_mem_nil, or_false] at hm
      rcases hm with ⟨-, rfl⟩ | ⟨-, rfl⟩ | ⟨-, rfl⟩ <;> simp
  · cases h

theorem type_texts {t : String} (h : t ∈ inputGroupTexts.map (·.2) ∨ t ∈ outputGroupTexts.map (·.2)) :
    ((oneOf ["from environment", "to environment"]).accepts (.str t) = true ↔ hasSubtext "environment" t = true) ∧
    ((oneOf ["from technosphere", "reference product", "byproduct", "dropped product"]).accepts (.str t) = true ↔ t ∈ ["from technosphere", "reference product", "byproduct"]) ∧
    (hasSubtext "environment" t = true → t ∉ ["from technosphere", "reference product", "byproduct"]) := by
  rw [accepts_oneOf, accepts_oneOf]
  simp only [inputGroupTexts, outputGroupTexts, List.map, List.mem_cons, List.not_mem_nil, or_false] at h
  rcases h with (rfl | rfl | rfl | rfl | rfl) | (rfl | rfl | rfl | rfl | rfl) <;> simp [hasSubtext]

theorem accepts_lit (s t : String) : (Sch.lit s).accepts (.str t) = true ↔ t = s := by
  rw [Sch.accepts]
  simp only [beq_iff_eq]
  exact eq_comm

theorem mapE_mem_left {α β : Type} {f : α → Except Err β} {l : List α} {r : List β} (h : mapE f l = .ok r) {a : α} (ha : a ∈ l) : ∃ b ∈ r, f a = .ok b := by
  have hf := mapE_ok_iff.mp h
  induction hf with
  | nil => cases ha
  | cons hab _ ih =>
    rcases List.mem_cons.mp ha with rfl | ha
    · exact ⟨_, by simp, hab⟩
    · obtain ⟨b, hb, hfb⟩ := ih (mapE_ok_iff.mpr (by assumption)) ha
      exact ⟨b, by simp [hb], hfb⟩

theorem properties_iff {X : XmlEnv} {e : Elem} {props : List PyVal} (h : mapE (propertyVal X) (e.children.filter fun c => c.tag == "property") = .ok props) :
    (Sch.listOf validProperty).accepts (.list props) = true ↔ ∀ c ∈ e.children, c.tag = "property" → ValidProperty c := by
  rw [accepts_listOf]
  constructor
  · intro ha c hc ht
    have hm : c ∈ e.children.filter fun c => c.tag == "property" := List.mem_filter.mpr ⟨hc, by simpa using ht⟩
    obtain ⟨v, hv, hcv⟩ := mapE_mem_left h hm
    exact (validProperty_iff hcv).mp (ha v hv)
  · intro ha v hv
    obtain ⟨c, hc, hcv⟩ := mapE_mem h hv
    obtain ⟨h1, h2⟩ := List.mem_filter.mp hc
    exact (validProperty_iff hcv).mpr (ha c h1 (by simpa using h2))

theorem validExchange_iff {X : XmlEnv} {dsType : String} {e : Elem} {v : PyVal} (h : exchangeVal X dsType e = .ok v) :
    (Sch.anyOf [elementarySchema, activitySchema]).accepts v = true ↔ ValidExchange e := by
  unfold exchangeVal at h
  obtain ⟨name, hname, h⟩ := bind_eq_ok.mp h
  obtain ⟨unit, hunit, h⟩ := bind_eq_ok.mp h
  obtain ⟨amount, _, h⟩ := bind_eq_ok.mp h
  obtain ⟨t, ht, h⟩ := bind_eq_ok.mp h
  obtain ⟨cls, hcls, h⟩ := bind_eq_ok.mp h
  obtain ⟨props, hprops, h⟩ := bind_eq_ok.mp h
  obtain ⟨comp, hcomp, h⟩ := bind_eq_ok.mp h
  obtain ⟨pv, hpv, h⟩ := bind_eq_ok.mp h
  obtain ⟨unc, hunc, h⟩ := bind_eq_ok.mp h
  cases h
  have h1 := uncertaintyOk_iff hunc
  have h2 := hasText_of_child hname
  have h3 := hasText_of_child hunit
  have h4 := properties_iff hprops
  have h6 := inGroup_of_type ht
  have h5 := type_texts h6.2.2.2
  have h7 := (noClass_iff hcls).1
  have h7' := (noClass_iff hcls).2
  rw [accepts_anyOf]
  simp only [List.any_cons, List.any_nil, Bool.or_false, Bool.or_eq_true]
  by_cases henv : hasSubtext "environment" t = true
  · have hact : ∀ d : List (String × PyVal), d.lookup "type" = some (.str t) → ¬ activitySchema.accepts (.dict d) = true := by
      intro d hd ha
      rw [activitySchema, accepts_record] at ha
      have := (ha.2 (need "type" (oneOf ["from technosphere", "reference product", "byproduct", "dropped product"])) (by simp)).1 _ hd
      exact h5.2.2 henv (h5.2.1.mp this)
    have hpv' : pv = none := by
      unfold volumeFor at hpv
      rw [if_neg (fun hp => h5.2.2 henv (by rcases hp with h | h <;> simp [h]))] at hpv
      cases hpv
      rfl
    have hcond : conditionalVal dsType t (givenText (e.get "activityLinkId")) amount = none := by
      unfold conditionalVal
      rw [if_pos henv]
    unfold compartmentVal at hcomp
    rw [if_pos henv] at hcomp
    obtain ⟨c, hc, hcomp⟩ := bind_eq_ok.mp hcomp
    obtain ⟨cc, hcc, hcomp⟩ := bind_eq_ok.mp hcomp
    obtain ⟨cs, hcs, hcomp⟩ := bind_eq_ok.mp hcomp
    cases hcomp
    have h8 := hasText_of_child hcc
    have h9 := hasText_of_child hcs
    have hc' := child?_of_child hc
    subst hpv'
    rw [hcond]
    constructor
    · rintro (ha | ha)
      · rw [elementarySchema, accepts_record] at ha
        obtain ⟨ha1, ha2⟩ := ha
        simp [FieldOk, need, opt, lookup_append', lookup_optEntry, lookup_cons_if, accepts_lit, ← h2, ← h3, ← h8, ← h9, h1, h4] at ha2
        have hlink : givenText (e.get "activityLinkId") = none := by
          rcases hl : givenText (e.get "activityLinkId") with _ | w
          · rfl
          · have := ha1 ("activity link", .str w) (by simp [mem_optEntry, hl])
            simp [need, opt] at this
        have hnone : cls = none := by
          rcases hl : cls with _ | w
          · rfl
          · have := ha1 ("byproduct classification", .str w) (by simp [mem_optEntry, hl])
            simp [need, opt] at this
        obtain ⟨a1, a2, a3, a4, a5, a6, a7, a8, a9⟩ := ha2
        exact ⟨a2, a3, a7, a8, a9, .inl ⟨h6.1.mpr henv, a5, ⟨c, hc', a1, a4⟩, hlink, h7.mp hnone⟩⟩
      · exact absurd ha (hact _ (by simp [lookup_append', lookup_optEntry, lookup_cons_if]))
    · intro hv
      left
      have hel : ValidElementary e := by
        rcases hv.kind with h | h
        · exact h
        · exact absurd (h6.2.1.mp h.group) (h5.2.2 henv)
      have hnone := h7.mpr hel.noClass
      subst hnone
      rw [hel.noLink]
      obtain ⟨c', hc'', b1, b2⟩ := hel.compartment
      rw [hc'] at hc''
      cases hc''
      rw [elementarySchema, accepts_record]
      constructor
      · intro p hp
        simp [mem_optEntry] at hp
        simp only [List.map, need, opt]
        rcases hp with rfl | rfl | rfl | rfl | rfl | rfl | ⟨_, _, rfl⟩ | ⟨_, _, rfl⟩ | rfl | rfl | rfl | ⟨_, _, rfl⟩ <;> simp
      · simp [FieldOk, need, opt, lookup_append', lookup_optEntry, lookup_cons_if, accepts_lit, ← h2, ← h3, ← h8, ← h9, h1, h4, hv.id, hv.name, hv.unit, hv.uncertainty, b1, b2, hel.tag, h5.1, henv]
        exact hv.properties
  · have hele : ∀ d : List (String × PyVal), d.lookup "type" = some (.str t) → ¬ elementarySchema.accepts (.dict d) = true := by
      intro d hd ha
      rw [elementarySchema, accepts_record] at ha
      have := (ha.2 (need "type" (oneOf ["from environment", "to environment"])) (by simp)).1 _ hd
      exact henv (h5.1.mp this)
    unfold compartmentVal at hcomp
    rw [if_neg henv] at hcomp
    cases hcomp
    have hvol : (∀ x, pv = some x → validProductionVolume.accepts x = true) ↔ (InGroup e [] ["0", "2"] → UncertaintyOk e "productionVolumeUncertainty") := by
      unfold volumeFor at hpv
      rw [h6.2.2.1]
      split at hpv
      · next hp =>
        obtain ⟨w, hw, hpv⟩ := bind_eq_ok.mp hpv
        cases hpv
        simp [validVolume_iff hw, hp]
      · next hp =>
        cases hpv
        simp [hp]
    constructor
    · rintro (ha | ha)
      · exact absurd ha (hele _ (by simp [lookup_append', lookup_optEntry, lookup_cons_if]))
      · rw [activitySchema, accepts_record] at ha
        obtain ⟨-, ha2⟩ := ha
        simp [FieldOk, need, opt, lookup_append', lookup_optEntry, lookup_cons_if, accepts_lit, ← h2, ← h3, h1, h4, hvol] at ha2
        obtain ⟨a1, a2, a3, a4, a5, _, _, a6, a7, a8⟩ := ha2
        exact ⟨a1, a2, a5, a7, a8, .inr ⟨h6.2.1.mpr (h5.2.1.mp a4), a3, a6⟩⟩
    · intro hv
      right
      have hin : ValidIntermediate e := by
        rcases hv.kind with h | h
        · exact absurd (h6.1.mp h.group) henv
        · exact h
      rw [activitySchema, accepts_record]
      constructor
      · intro p hp
        simp [mem_optEntry] at hp
        simp only [List.map, need, opt]
        rcases hp with rfl | rfl | rfl | rfl | rfl | rfl | ⟨_, _, rfl⟩ | ⟨_, _, rfl⟩ | ⟨_, _, rfl⟩ | ⟨_, _, rfl⟩ | rfl | ⟨_, _, rfl⟩ | ⟨_, _, rfl⟩ | ⟨_, _, rfl⟩ <;> simp
      · simp [FieldOk, need, opt, lookup_append', lookup_optEntry, lookup_cons_if, accepts_lit, ← h2, ← h3, h1, h4, hv.id, hv.name, hv.unit, hv.uncertainty, hin.tag, hvol]
        refine ⟨h5.2.1.mpr (h6.2.1.mp hin.group), h7', ?_, hin.volume, hv.properties⟩
        intro x hx
        unfold conditionalVal at hx
        rw [if_neg henv] at hx
        cases hx
        rfl

/-! ## Datasets -/

theorem hasSubtext_infix (sub s : String) : hasSubtext sub s = true ↔ sub.toList <:+: s.toList := by
  unfold hasSubtext
  rw [List.any_eq_true]
  constructor
  · rintro ⟨t, ht, hp⟩
    exact (List.isPrefixOf_iff_prefix.mp hp).isInfix.trans ((List.mem_tails _ _).mp ht).isInfix
  · intro h
    obtain ⟨t, hp, hs⟩ := List.infix_iff_prefix_suffix.mp h
    exact ⟨t, (List.mem_tails _ _).mpr hs, List.isPrefixOf_iff_prefix.mpr hp⟩

theorem isic_iff {desc : Elem} {l : List Elem} {o : PyVal} (h : isicVal l = .ok o) (hl : desc.children = l) : Sch.str.accepts o = true ↔ HasIsic desc := by
  unfold HasIsic
  rw [hl]
  clear hl
  induction l with
  | nil => cases h; simp [Sch.accepts]
  | cons c l ih =>
    have hcons : ¬ IsIsic c → ((∃ before c' after, c :: l = before ++ c' :: after ∧ (∀ b ∈ before, ¬ IsIsic b) ∧ IsIsic c' ∧ HasText c' "classificationValue") ↔
        ∃ before c' after, l = before ++ c' :: after ∧ (∀ b ∈ before, ¬ IsIsic b) ∧ IsIsic c' ∧ HasText c' "classificationValue") := by
      intro hn
      constructor
      · rintro ⟨before, c', after, he, hb, hi, ht⟩
        rcases before with _ | ⟨b, before⟩
        · cases he; exact absurd hi hn
        · cases he
          exact ⟨before, c', after, rfl, fun b hb' => hb b (by simp [hb']), hi, ht⟩
      · rintro ⟨before, c', after, rfl, hb, hi, ht⟩
        exact ⟨c :: before, c', after, rfl, by simpa using ⟨hn, hb⟩, hi, ht⟩
    unfold isicVal at h
    split at h
    · next hc =>
      obtain ⟨s, hs, h⟩ := bind_eq_ok.mp h
      have hs' := child?_of_child hs
      split at h
      · cases h
      · split at h
        · next hi =>
          obtain ⟨v, hv, h⟩ := bind_eq_ok.mp h
          cases h
          have hisic : IsIsic c := ⟨(hasSubtext_infix _ _).mp hc, s, hs', (hasSubtext_infix _ _).mp hi⟩
          rw [accepts_str_ofText, ← hasText_of_child hv]
          constructor
          · intro ht
            exact ⟨[], c, l, rfl, by simp, hisic, ht⟩
          · rintro ⟨before, c', after, he, hb, hi', ht⟩
            rcases before with _ | ⟨b, before⟩
            · cases he; exact ht
            · cases he
              exact absurd hisic (hb _ (by simp))
        · next hi =>
          rw [ih h, hcons]
          rintro ⟨_, s', hs'', hi'⟩
          rw [hs'] at hs''
          cases hs''
          exact hi ((hasSubtext_infix _ _).mpr hi')
    · next hc =>
      rw [ih h, hcons]
      rintro ⟨hc', _⟩
      exact hc ((hasSubtext_infix _ _).mpr hc')

theorem list_iff {s : Sch} {f : Elem → Except Err PyVal} {P : Elem → Prop} {sub : String} {flow : Elem} {l : List PyVal} (hf : ∀ c v, f c = .ok v → (s.accepts v = true ↔ P c))
    (h : mapE f (flow.children.filter fun c => hasSubtext sub c.tag) = .ok l) : (Sch.listOf s).accepts (.list l) = true ↔ ∀ p ∈ flow.children, sub.toList <:+: p.tag.toList → P p := by
  rw [accepts_listOf]
  constructor
  · intro ha c hc ht
    obtain ⟨v, hv, hcv⟩ := mapE_mem_left h (List.mem_filter.mpr ⟨hc, (hasSubtext_infix _ _).mpr ht⟩)
    exact (hf c v hcv).mp (ha v hv)
  · intro ha v hv
    obtain ⟨c, hc, hcv⟩ := mapE_mem h hv
    obtain ⟨h1, h2⟩ := List.mem_filter.mp hc
    exact (hf c v hcv).mpr (ha c h1 ((hasSubtext_infix _ _).mp h2))

theorem dsType_accepted {k t : String} (h : readTable activityTypeTexts k = .ok t) : validActivityTypes.accepts (.str t) = true := by
  rw [validActivityTypes, accepts_oneOf, List.contains_iff_mem]
  exact List.mem_map.mpr ⟨_, mem_of_lookup (getKey_eq_ok.mp h), rfl⟩

theorem level_accepted {o : Option String} {t : String} (h : getKey (levelTexts.lookup o) = .ok t) : validLevels.accepts (.str t) = true := by
  rw [validLevels, accepts_oneOf, List.contains_iff_mem]
  have h' := getKey_eq_ok.mp h
  have hm : ∀ l : List (Option String × String), l.lookup o = some t → t ∈ l.map (·.2) := by
    intro l hl
    induction l with
    | nil => cases hl
    | cons p l ih =>
      obtain ⟨k, v⟩ := p
      rw [List.lookup_cons] at hl
      split at hl
      · cases hl; simp
      · exact List.mem_cons_of_mem _ (ih hl)
  have := hm _ h'
  simp only [levelTexts, List.map, List.mem_cons, List.not_mem_nil, or_false] at this
  rcases this with rfl | rfl | rfl | rfl | rfl | rfl | rfl | rfl <;> simp

theorem access_accepted {k t : String} (h : readTable accessTexts k = .ok t) : validAccess.accepts (.str t) = true := by
  rw [validAccess, accepts_oneOf, List.contains_iff_mem]
  have hm := mem_of_lookup (getKey_eq_ok.mp h)
  simp only [accessTexts, List.mem_cons, Prod.mk.injEq, List.not_mem_nil, or_false] at hm
  rcases hm with ⟨-, rfl⟩ | ⟨-, rfl⟩ | ⟨-, rfl⟩ | ⟨-, rfl⟩ <;> simp

theorem accepts_parent (o : Option String) : (Sch.anyOf [.none, .str]).accepts (.ofAttr o) = true := by
  rw [accepts_anyOf]
  cases o <;> rfl

/-- **C103**: an extracted dataset satisfies the internal schema exactly if the ecospold2 dataset is valid in the sense of the specification. -/
theorem C103_conforms {X : XmlEnv} {filepath : String} {e : Elem} {v : PyVal} (h : datasetVal X filepath e = .ok v) : datasetSchema.accepts v = true ↔ ValidDataset e := by
  unfold datasetVal at h
  obtain ⟨desc, hdesc, h⟩ := bind_eq_ok.mp h
  obtain ⟨act, hact, h⟩ := bind_eq_ok.mp h
  obtain ⟨name, hname, h⟩ := bind_eq_ok.mp h
  obtain ⟨geo, hgeo, h⟩ := bind_eq_ok.mp h
  obtain ⟨loc, hloc, h⟩ := bind_eq_ok.mp h
  obtain ⟨typeText, htt, h⟩ := bind_eq_ok.mp h
  obtain ⟨type, htype, h⟩ := bind_eq_ok.mp h
  obtain ⟨tech, htech, h⟩ := bind_eq_ok.mp h
  obtain ⟨level, hlevel, h⟩ := bind_eq_ok.mp h
  obtain ⟨period, hperiod, h⟩ := bind_eq_ok.mp h
  obtain ⟨scenario, hscenario, h⟩ := bind_eq_ok.mp h
  obtain ⟨scenarioName, hsn, h⟩ := bind_eq_ok.mp h
  obtain ⟨admin, hadmin, h⟩ := bind_eq_ok.mp h
  obtain ⟨publication, hpub, h⟩ := bind_eq_ok.mp h
  obtain ⟨accessText, hat, h⟩ := bind_eq_ok.mp h
  obtain ⟨access, haccess, h⟩ := bind_eq_ok.mp h
  obtain ⟨flow, hflow, h⟩ := bind_eq_ok.mp h
  obtain ⟨parameters, hparams, h⟩ := bind_eq_ok.mp h
  obtain ⟨entry, hentry, h⟩ := bind_eq_ok.mp h
  obtain ⟨isic, hisic, h⟩ := bind_eq_ok.mp h
  obtain ⟨exchanges, hexcs, h⟩ := bind_eq_ok.mp h
  cases h
  have d1 : descendant? e ["activityDescription", "activity"] = some act := by simp [descendant?, child?_of_child hdesc, child?_of_child hact]
  have d2 : descendant? e ["activityDescription", "geography"] = some geo := by simp [descendant?, child?_of_child hdesc, child?_of_child hgeo]
  have d3 : descendant? e ["activityDescription", "macroEconomicScenario"] = some scenario := by simp [descendant?, child?_of_child hdesc, child?_of_child hscenario]
  have d4 : descendant? e ["activityDescription", "timePeriod"] = some period := by simp [descendant?, child?_of_child hdesc, child?_of_child hperiod]
  have d5 : descendant? e ["administrativeInformation", "dataGeneratorAndPublication"] = some publication := by simp [descendant?, child?_of_child hadmin, child?_of_child hpub]
  have d6 : descendant? e ["administrativeInformation", "dataEntryBy"] = some entry := by simp [descendant?, child?_of_child hadmin, child?_of_child hentry]
  have e1 := hasText_of_child hname
  have e2 := hasText_of_child hloc
  have e3 := hasText_of_child hsn
  have e4 := isic_iff hisic rfl
  have e5 := list_iff (fun c v hv => validParameter_iff hv) hparams
  have e6 := list_iff (fun c v hv => validExchange_iff hv) hexcs
  have e7 := dsType_accepted htype
  have e8 := level_accepted hlevel
  have e9 := access_accepted haccess
  rw [datasetSchema, accepts_record]
  constructor
  · rintro ⟨-, hf⟩
    simp [FieldOk, need, opt, lookup_cons_if, ← e1, ← e2, ← e3, e4, e5, e6, e7, e8, e9, accepts_parent] at hf
    obtain ⟨a1, a2, a3, a4, a5, a6, a7, a8, a9, a10, a11⟩ := hf
    refine ⟨by rw [d1]; exact a5, ⟨act, d1, a7⟩, ⟨geo, d2, a6⟩, ⟨scenario, d3, a3⟩, by rw [d4]; exact a8, by rw [d4]; exact a4, by rw [d5]; exact a9, by rw [d6]; exact a10,
      ⟨desc, child?_of_child hdesc, a11⟩, ⟨flow, child?_of_child hflow, a2⟩, ⟨flow, child?_of_child hflow, a1⟩⟩
  · intro hv
    obtain ⟨c1, hc1, b1⟩ := hv.name
    obtain ⟨c2, hc2, b2⟩ := hv.location
    obtain ⟨c3, hc3, b3⟩ := hv.scenario
    obtain ⟨c4, hc4, b4⟩ := hv.isic
    obtain ⟨c5, hc5, b5⟩ := hv.parameters
    obtain ⟨c6, hc6, b6⟩ := hv.exchanges
    rw [d1] at hc1
    rw [d2] at hc2
    rw [d3] at hc3
    rw [child?_of_child hdesc] at hc4
    rw [child?_of_child hflow] at hc5 hc6
    cases hc1
    cases hc2
    cases hc3
    cases hc4
    cases hc5
    cases hc6
    have f1 := hv.id
    have f2 := hv.start
    have f3 := hv.stop
    have f4 := hv.author
    have f5 := hv.entry
    rw [d1] at f1
    rw [d4] at f2 f3
    rw [d5] at f4
    rw [d6] at f5
    simp only [Option.bind_some] at f1 f2 f3 f4 f5
    constructor
    · intro p hp
      simp only [List.mem_cons, List.not_mem_nil, or_false] at hp
      simp only [List.map, need, opt]
      rcases hp with rfl | rfl | rfl | rfl | rfl | rfl | rfl | rfl | rfl | rfl | rfl | rfl | rfl | rfl | rfl | rfl <;> simp
    · simp [FieldOk, need, opt, lookup_cons_if, ← e1, ← e2, ← e3, e4, e5, e6, e7, e8, e9, accepts_parent, f1, f2, f3, f4, f5, b1, b2, b3, b4]
      exact ⟨b6, b5⟩

/-- **C103**: the data that validation looks at are the data that the other functions work on: the dictionaries and the structures made of a dataset have the same content, and extraction fails for both with the
same error. -/
theorem C103_same_data (X : XmlEnv) (filepath : String) (e : Elem) : SameResult SameDataset (datasetVal X filepath e) (extractDataset X filepath e) := sameDataset X filepath e

/-- **C103** fails for datasets without access restriction, which is optional in ecospold2: they are not even extracted. -/
theorem C103_access {X : XmlEnv} {filepath : String} {e : Elem} {v : PyVal} (h : datasetVal X filepath e = .ok v) :
    ∃ a, (descendant? e ["administrativeInformation", "dataGeneratorAndPublication"]).bind (·.get "accessRestrictedTo") = some a ∧ a ∈ ["0", "1", "2", "3"] := by
  unfold datasetVal at h
  obtain ⟨desc, hdesc, h⟩ := bind_eq_ok.mp h
  obtain ⟨act, hact, h⟩ := bind_eq_ok.mp h
  obtain ⟨name, hname, h⟩ := bind_eq_ok.mp h
  obtain ⟨geo, hgeo, h⟩ := bind_eq_ok.mp h
  obtain ⟨loc, hloc, h⟩ := bind_eq_ok.mp h
  obtain ⟨typeText, htt, h⟩ := bind_eq_ok.mp h
  obtain ⟨type, htype, h⟩ := bind_eq_ok.mp h
  obtain ⟨tech, htech, h⟩ := bind_eq_ok.mp h
  obtain ⟨level, hlevel, h⟩ := bind_eq_ok.mp h
  obtain ⟨period, hperiod, h⟩ := bind_eq_ok.mp h
  obtain ⟨scenario, hscenario, h⟩ := bind_eq_ok.mp h
  obtain ⟨scenarioName, hsn, h⟩ := bind_eq_ok.mp h
  obtain ⟨admin, hadmin, h⟩ := bind_eq_ok.mp h
  obtain ⟨publication, hpub, h⟩ := bind_eq_ok.mp h
  obtain ⟨accessText, hat, h⟩ := bind_eq_ok.mp h
  obtain ⟨access, haccess, h⟩ := bind_eq_ok.mp h
  refine ⟨accessText, ?_, ?_⟩
  · simp [descendant?, child?_of_child hadmin, child?_of_child hpub, getKey_eq_ok.mp hat]
  · have hm := mem_of_lookup (getKey_eq_ok.mp haccess)
    simp only [accessTexts, List.mem_cons, Prod.mk.injEq, List.not_mem_nil, or_false] at hm
    rcases hm with ⟨rfl, -⟩ | ⟨rfl, -⟩ | ⟨rfl, -⟩ | ⟨rfl, -⟩ <;> simp

/-! A dataset with an input, an emission with a lognormal uncertainty and a product with a production volume. -/

namespace SchemaExample

def leaf (t s : String) : Elem := .mk t [] s []

def X : XmlEnv := ⟨fun _ => some 1, fun _ => some 1, id, fun _ => .error .valueError⟩

def lognormal : Elem := .mk "uncertainty" [] "" [.mk "lognormal" [("meanValue", "1"), ("varianceWithPedigreeUncertainty", "1")] "" []]

def emission : Elem :=
  .mk "elementaryExchange" [("id", "e1"), ("amount", "1")] "" [leaf "name" "CO2", leaf "unitName" "kg", lognormal, .mk "compartment" [] "" [leaf "compartment" "air", leaf "subcompartment" "urban"], leaf "outputGroup" "4"]

def input : Elem := .mk "intermediateExchange" [("id", "i1"), ("amount", "1")] "" [leaf "name" "coal", leaf "unitName" "kg", leaf "inputGroup" "5"]

def product (group : String) : Elem :=
  .mk "intermediateExchange" [("id", "p1"), ("amount", "1"), ("productionVolumeAmount", "1")] "" [leaf "name" "heat", leaf "unitName" "MJ", leaf "outputGroup" group,
    .mk "property" [("propertyId", "q1"), ("amount", "1")] "" [leaf "name" "price", leaf "unitName" "EUR"]]

def parameter : Elem := .mk "parameter" [("parameterId", "r1"), ("amount", "1")] "" [leaf "name" "efficiency"]

def dataset (group : String) : Elem :=
  .mk "activityDataset" [] "" [.mk "activityDescription" [] "" [.mk "activity" [("id", "a1"), ("specialActivityType", "0")] "" [leaf "activityName" "heating"],
      .mk "classification" [] "" [leaf "classificationSystem" "ISIC rev.4", leaf "classificationValue" "3530"], .mk "geography" [] "" [leaf "shortname" "CH"], .mk "technology" [] "" [],
      .mk "timePeriod" [("startDate", "2015-01-01"), ("endDate", "2015-12-31")] "" [], .mk "macroEconomicScenario" [] "" [leaf "name" "BAU"]],
    .mk "flowData" [] "" [emission, input, product group, parameter],
    .mk "administrativeInformation" [] "" [.mk "dataEntryBy" [("personName", "x")] "" [], .mk "dataGeneratorAndPublication" [("personName", "y"), ("accessRestrictedTo", "1")] "" []]]

/-- Whether extraction succeeds and gives data that satisfy the schema. -/
def verdict (e : Elem) : Option Bool := match datasetVal X "f" e with | .ok v => some (datasetSchema.accepts v) | .error _ => none

/-- C103: a valid dataset, and one that is extracted and not valid (output group 5). -/
example : verdict (dataset "0") = some true ∧ verdict (dataset "5") = some false := by decide +kernel

/-- So the specification is met by a dataset, and not by another one. -/
example : ValidDataset (dataset "0") ∧ ¬ ValidDataset (dataset "5") := by
  have h : ∀ g b, verdict (dataset g) = some b → (b = true ↔ ValidDataset (dataset g)) := by
    intro g b hb
    unfold verdict at hb
    split at hb
    · next v hv => rw [← C103_conforms hv]; cases hb; rfl
    · cases hb
  refine ⟨(h "0" true (by decide +kernel)).mp rfl, fun hv => ?_⟩
  have := (h "5" false (by decide +kernel)).mpr hv
  cases this

end SchemaExample

/-- **C103** fails for gamma distributions: the ecospold2 schema requires a minimum for them, which the internal schema does not allow. An uncertainty with a gamma distribution that has a minimum is never
valid. -/
theorem C103_gamma {u dist : Elem} (h : findDistribution u = .ok dist) (htag : dist.tag = "gamma") (hmin : (dist.get "minValue").isSome = true) : ¬ ValidUncertainty u := by
  rintro ⟨dist', hd, must, may, hm, -, h2⟩
  rw [h] at hd
  cases hd
  rw [htag] at hm
  simp only [distributionNames, List.mem_cons, Prod.mk.injEq, List.not_mem_nil, or_false] at hm
  simp at hm
  obtain ⟨rfl, rfl⟩ := hm
  obtain ⟨v, hv⟩ := Option.isSome_iff_exists.mp hmin
  have := h2 _ (mem_of_lookup hv)
  rw [show valueName "minValue" = "minimum" by decide +kernel] at this
  simp at this

/-- **C103** fails for the input groups 1, 2 and 3 (materials, electricity, services) and the output groups 3 and 5 (material for treatment, stock additions), which ecospold2 allows: such an exchange is never valid. -/
theorem C103_groups {e : Elem} (h : InGroup e ["1", "2", "3"] ["3", "5"]) : ¬ ValidExchange e := by
  have key : ∀ {i o : List String}, InGroup e i o → (∀ x ∈ i, x ∉ ["1", "2", "3"]) → (∀ x ∈ o, x ∉ ["3", "5"]) → False := by
    intro i o h1 hi ho
    rcases h1 with ⟨g, hg, hx⟩ | ⟨hn, g, hg, hx⟩ <;> rcases h with ⟨g', hg', hx'⟩ | ⟨hn', g', hg', hx'⟩
    · rw [hg] at hg'; cases hg'; exact hi _ hx hx'
    · rw [hg] at hn'; cases hn'
    · rw [hn] at hg'; cases hg'
    · rw [hg] at hg'; cases hg'; exact ho _ hx hx'
  intro hv
  rcases hv.kind with h1 | h1
  · exact key h1.group (by simp) (by simp)
  · exact key h1.group (by simp) (by simp)

/-! ## C104 -/

/-- **C104**: "No errors found" is reported exactly if all datasets satisfy the schema. -/
theorem C104_no_errors {α : Type} (check : α → Option String) (data : List α) : (validateDirectory check data).count = 0 ↔ ∀ ds ∈ data, check ds = none := by
  unfold ValidationReport.count validateDirectory
  rw [List.length_eq_zero_iff]
  have hk := fun k => dictOf_keys_mem (fun p : String × α => p.1) (fun p => p.2) (data.filterMap fun ds => (check ds).map fun m => (m, ds)) k
  unfold dictOf at hk
  constructor
  · intro h ds hds
    rcases hc : check ds with _ | m
    · rfl
    · have := (hk m).mpr ⟨(m, ds), List.mem_filterMap.mpr ⟨ds, hds, by simp [hc]⟩, rfl⟩
      simp only at h this
      rw [h] at this
      cases this
  · intro h
    have : (data.filterMap fun ds => (check ds).map fun m => (m, ds)) = [] := by
      rw [List.filterMap_eq_nil_iff]
      intro ds hds
      simp [h ds hds]
    simp [this]

/-- **C104**: each message is reported once, with the last dataset that gave it. -/
theorem C104_report {α : Type} (check : α → Option String) (data : List α) (m : String) (ds : α) :
    (m, ds) ∈ (validateDirectory check data).errors ↔ ∃ before after, data = before ++ ds :: after ∧ check ds = some m ∧ ∀ other ∈ after, check other ≠ some m := by
  have h := dictOf_mem (fun p : String × α => p.1) (fun p => p.2) (data.filterMap fun ds => (check ds).map fun m => (m, ds)) m ds
  unfold dictOf at h
  refine Iff.trans h ?_
  constructor
  · rintro ⟨l₁, a, l₂, he, rfl, rfl, hl⟩
    obtain ⟨d₁, d₂, rfl, -, h2⟩ := List.filterMap_eq_append_iff.mp he
    obtain ⟨d₃, x, d₄, rfl, hn, hx, h3⟩ := List.filterMap_eq_cons_iff.mp h2
    rcases hc : check x with _ | m'
    · simp [hc] at hx
    · simp only [hc, Option.map_some, Option.some.injEq] at hx
      subst hx
      refine ⟨d₁ ++ d₃, d₄, by simp, hc, ?_⟩
      intro other ho hbad
      rw [← h3] at hl
      exact hl (m', other) (List.mem_filterMap.mpr ⟨other, ho, by simp [hbad]⟩) rfl
  · rintro ⟨before, after, rfl, hc, ha⟩
    refine ⟨before.filterMap (fun ds => (check ds).map fun m => (m, ds)), (m, ds), after.filterMap (fun ds => (check ds).map fun m => (m, ds)), ?_, rfl, rfl, ?_⟩
    · rw [List.filterMap_append, List.filterMap_cons]
      simp [hc]
    · intro b hb hbm
      obtain ⟨other, ho, hx⟩ := List.mem_filterMap.mp hb
      rcases hco : check other with _ | m'
      · simp [hco] at hx
      · simp only [hco, Option.map_some, Option.some.injEq] at hx
        subst hx
        exact ha other ho (by rw [hco]; simpa using hbm)

/-- **C104**: the number of errors that is printed is the number of different messages. -/
theorem C104_count {α : Type} (check : α → Option String) (data : List α) : (validateDirectory check data).count = (data.filterMap check).dedup.length := by
  have hk := fun k => dictOf_keys_mem (fun p : String × α => p.1) (fun p => p.2) (data.filterMap fun ds => (check ds).map fun m => (m, ds)) k
  have hn := dictOf_nodup (fun p : String × α => p.1) (fun p => p.2) (data.filterMap fun ds => (check ds).map fun m => (m, ds))
  unfold dictOf at hk hn
  unfold ValidationReport.count validateDirectory
  rw [← List.length_map (f := fun p : String × α => p.1)]
  apply List.Perm.length_eq
  rw [List.perm_ext_iff_of_nodup hn (List.nodup_dedup _)]
  intro m
  rw [hk, List.mem_dedup, List.mem_filterMap]
  constructor
  · rintro ⟨p, hp, rfl⟩
    obtain ⟨ds, hds, hx⟩ := List.mem_filterMap.mp hp
    rcases hc : check ds with _ | m'
    · simp [hc] at hx
    · simp only [hc, Option.map_some, Option.some.injEq] at hx
      subst hx
      exact ⟨ds, hds, hc⟩
  · rintro ⟨ds, hds, hc⟩
    exact ⟨(m, ds), List.mem_filterMap.mpr ⟨ds, hds, by simp [hc]⟩, rfl⟩

/-- **C104** is false for the number of invalid datasets: of datasets with the same message only the last is reported, so that the number printed is smaller than the number of invalid datasets. -/
theorem C104_same_message {α : Type} (check : α → Option String) (before between after : List α) (a b : α) (m : String) (ha : check a = some m) (hb : check b = some m) :
    (validateDirectory check (before ++ a :: between ++ b :: after)).count < ((before ++ a :: between ++ b :: after).filter fun ds => (check ds).isSome).length := by
  have hlen : ∀ l : List α, (l.filter fun ds => (check ds).isSome).length = (l.filterMap check).length := by
    intro l
    induction l with
    | nil => rfl
    | cons x l ih => rcases hc : check x with _ | y <;> simp [hc, ih]
  rw [C104_count, hlen]
  refine lt_of_le_of_ne (List.dedup_sublist _).length_le ?_
  intro heq
  have h1 := (List.dedup_sublist (List.filterMap check (before ++ a :: between ++ b :: after))).eq_of_length heq
  have h2 := List.nodup_dedup (List.filterMap check (before ++ a :: between ++ b :: after))
  rw [h1] at h2
  simp [List.filterMap_append, ha, hb] at h2
  have := List.nodup_append.mp h2
  simp at this

/-- C103_gamma and C103_groups: such elements exist. -/
example : (findDistribution (.mk "uncertainty" [] "" [.mk "gamma" [("shape", "1"), ("scale", "1"), ("minValue", "0")] "" []])).toOption.map (fun d => (d.tag, (d.get "minValue").isSome)) = some ("gamma", true) ∧
    InGroup (SchemaExample.product "5") ["1", "2", "3"] ["3", "5"] :=
  ⟨by decide +kernel, .inr ⟨by rfl, _, rfl, by decide +kernel⟩⟩

/-- C104: three invalid datasets, two errors. -/
example : (validateDirectory (fun n : ℕ => if n = 0 then none else some (if n = 3 then "b" else "a")) [1, 0, 3, 2]).errors = [("a", 2), ("b", 3)] := by decide +kernel

end Ocelot
