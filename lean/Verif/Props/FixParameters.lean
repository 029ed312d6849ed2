import Verif.Model.FixParameters
import Verif.Props.Params
import Verif.Props.References
import Verif.Props.ReservedWords

/-! # Property C53, second half: variable names after `fix_ecoinvent_parameters` -/

namespace Ocelot
open Spec

/-- All variables, in order. -/
def allVars (ds : Dataset) : List String := ds.numObjs.filterMap (·.var)

theorem varNames_eq (ds : Dataset) : varNames ds = (allVars ds).filter fun v => v != "" := rfl

theorem allVars_mapNumE {f : NumObj → Except Err NumObj} {g : String → String} (hf : ∀ o o', f o = .ok o' → o'.var = o.var.map g) {ds ds' : Dataset}
    (h : ds.mapNumE f = .ok ds') : allVars ds' = (allVars ds).map g := by
  obtain ⟨hm, -⟩ := Dataset.mapNumE_inv h
  unfold allVars
  generalize ds.numObjs = l at hm
  generalize ds'.numObjs = l' at hm
  induction l generalizing l' with
  | nil => cases hm; rfl
  | cons a l ih =>
    obtain ⟨b, r, hb, hr, rfl⟩ := mapE_cons_ok.mp hm
    have := hf a b hb
    rcases ha : a.var with _ | v
    · simp [this, ha, ih r hr]
    · simp [this, ha, ih r hr]

theorem allVars_same {f : NumObj → Except Err NumObj} (hf : ∀ o o', f o = .ok o' → o'.var = o.var) {ds ds' : Dataset}
    (h : ds.mapNumE f = .ok ds') : allVars ds' = allVars ds := by
  have := allVars_mapNumE (g := id) (fun o o' ho => by rw [hf o o' ho]; simp) h
  simpa using this

theorem allVars_known {ds ds' : Dataset} (h : fixKnownBadFormulas ds = .ok ds') : allVars ds' = allVars ds := by
  refine foldE_inv (I := fun _ d => allVars d = allVars ds) h rfl ?_
  intro _ sub d d' _ hd hs
  unfold fixKnownStep at hs
  split at hs
  · rw [← hd]
    refine allVars_same ?_ hs
    intro o o' ho
    cases ho; rfl
  · cases hs; exact hd

/-- The letters of a text are not ASCII capitals. -/
def Spec.NoCapitals (s : String) : Prop := ∀ c ∈ s.toList, ¬ ('A' ≤ c ∧ c ≤ 'Z')

/-- What the proofs need to know about `str.lower`. -/
structure Spec.Lowering (lower : String → String) : Prop where
  empty : ∀ s, lower s = "" ↔ s = ""
  noCapitals : ∀ s, NoCapitals (lower s)

theorem upper_reserved_capital : ∀ w ∈ reservedWords, ∃ c ∈ upperAscii w.toList, 'A' ≤ c ∧ c ≤ 'Z' := by decide +kernel

theorem upper_reserved_inj : ∀ w ∈ reservedWords, ∀ v ∈ reservedWords, upperAscii w.toList = upperAscii v.toList → w = v := by decide +kernel

theorem fixVariable_inj {v w : String} (hv : NoCapitals v) (hw : NoCapitals w) (h : fixVariable v = fixVariable w) : v = w := by
  unfold fixVariable at h
  split at h
  · next h1 =>
    split at h
    · next h2 => exact upper_reserved_inj v h1 w h2 (by simpa using congrArg String.toList h)
    · obtain ⟨c, hc, hcap⟩ := upper_reserved_capital v h1
      rw [← h] at hw
      exact absurd hcap (hw c (by simpa using hc))
  · split at h
    · next h2 =>
      obtain ⟨c, hc, hcap⟩ := upper_reserved_capital w h2
      rw [h] at hv
      exact absurd hcap (hv c (by simpa using hc))
    · exact h

theorem fixVariable_empty (v : String) : fixVariable v = "" ↔ v = "" := by
  unfold fixVariable
  split
  · next h =>
    obtain ⟨c, hc, -⟩ := upper_reserved_capital v h
    constructor
    · intro he
      have : upperAscii v.toList = [] := by simpa using congrArg String.toList he
      rw [this] at hc; cases hc
    · rintro rfl
      exact absurd h (by decide +kernel)
  · exact Iff.rfl

theorem onFormula_var {f : Text → Except Err Text} {o o' : NumObj} (h : onFormula f o = .ok o') : o'.var = o.var := by
  unfold onFormula at h
  split at h
  · cases h; rfl
  · obtain ⟨r, -, h⟩ := bind_eq_ok.mp h
    cases h; rfl

theorem allVars_fix {M : MathEnv} {T : TextEnv} {ds out d1 : Dataset} (h1 : replaceImplicitReferences (fixSpecificIssues ds) = .ok d1)
    (h : fixEcoinventParameters M T ds = .ok out) : allVars out = ((allVars d1).map T.lower).map fixVariable := by
  unfold fixEcoinventParameters at h
  rw [h1] at h
  simp only [ebind_ok] at h
  obtain ⟨d2, h2, h⟩ := bind_eq_ok.mp h
  obtain ⟨d3, h3, h⟩ := bind_eq_ok.mp h
  obtain ⟨d4, h4, h⟩ := bind_eq_ok.mp h
  obtain ⟨d5, h5, h⟩ := bind_eq_ok.mp h
  obtain ⟨d6, h6, h⟩ := bind_eq_ok.mp h
  have e2 : allVars d2 = allVars d1 := allVars_same (fun o o' ho => by rw [repair_frame ho]) h2
  have e3 := allVars_known h3
  have e4 : allVars d4 = (allVars d3).map T.lower := allVars_mapNumE (fun o o' ho => by cases ho; rfl) h4
  have e5 : allVars d5 = allVars d4 := allVars_same (fun o o' ho => onFormula_var ho) h5
  have e6 : allVars d6 = (allVars d5).map fixVariable := allVars_mapNumE (fun o o' ho => by cases ho; rfl) h6
  have e7 : allVars out = allVars d6 := allVars_same (fun o o' ho => by cases ho; rfl) h
  rw [e7, e6, e5, e4, e3, e2]

theorem filter_map_ne {g : String → String} (hg : ∀ s, g s = "" ↔ s = "") (l : List String) :
    (l.map g).filter (fun v => v != "") = (l.filter fun v => v != "").map g := by
  rw [List.filter_map]
  congr 1
  refine List.filter_congr fun v _ => ?_
  have := hg v
  by_cases hv : v = ""
  · simp [hv, (hg "").mpr rfl]
  · have h2 : g v ≠ "" := fun h => hv (this.mp h)
    simp only [Function.comp, bne_iff_ne.mpr hv, bne_iff_ne.mpr h2]

/-- C53, second half, part: after `fix_ecoinvent_parameters` the variable names of a dataset are pairwise different exactly when the names it has
once implicit references are replaced are pairwise different regardless of case. What is missing: that they are different whenever
`variable_names_are_unique` accepted the dataset — that is false, see `C53_lowercase_merges` and `C53_reference_name_taken`. -/
theorem C53_after_partial (M : MathEnv) (T : TextEnv) (hlow : Lowering T.lower) {ds d1 out : Dataset}
    (h1 : replaceImplicitReferences (fixSpecificIssues ds) = .ok d1) (h : fixEcoinventParameters M T ds = .ok out) :
    (varNames out).Nodup ↔ ((varNames d1).map T.lower).Nodup := by
  rw [varNames_eq, varNames_eq, allVars_fix h1 h, filter_map_ne fixVariable_empty, filter_map_ne hlow.empty]
  refine ⟨List.Nodup.of_map _, List.Nodup.map_on ?_⟩
  intro a ha b hb hab
  obtain ⟨a', -, rfl⟩ := List.mem_map.mp ha
  obtain ⟨b', -, rfl⟩ := List.mem_map.mp hb
  exact fixVariable_inj (hlow.noCapitals _) (hlow.noCapitals _) hab

/-! ### The hypotheses are met, and the names that clash -/

/-- `str.lower` on ASCII text. -/
def Spec.lowerAscii (s : String) : String := String.ofList (s.toList.map Char.toLower)

theorem toLower_noCapital (c : Char) : ¬ ('A' ≤ c.toLower ∧ c.toLower ≤ 'Z') := by
  rintro ⟨h1, h2⟩
  have e1 : (65 : ℕ) ≤ c.toLower.toNat := h1
  have e2 : c.toLower.toNat ≤ 90 := h2
  unfold Char.toLower at e1 e2
  split at e1
  · next h =>
    have f1 : (65 : ℕ) ≤ c.toNat := h.1
    have f2 : c.toNat ≤ 90 := h.2
    rw [dif_pos h] at e2
    have : (c.val + ('a'.val - 'A'.val)).toNat = c.toNat + 32 := by
      rw [UInt32.toNat_add]
      show (c.toNat + 32) % 2 ^ 32 = _
      omega
    have e3 : (c.val + ('a'.val - 'A'.val)).toNat ≤ 90 := e2
    omega
  · next h =>
    rw [dif_neg h] at e2
    exact h ⟨e1, e2⟩

theorem lowerAscii_lowering : Lowering lowerAscii := by
  constructor
  · intro s
    unfold lowerAscii
    constructor
    · intro h
      have : s.toList = [] := by simpa using congrArg String.toList h
      simpa using this
    · rintro rfl
      decide +kernel
  · intro s c hc
    obtain ⟨d, -, rfl⟩ := List.mem_map.mp (by simpa [lowerAscii] using hc : c ∈ s.toList.map Char.toLower)
    exact toLower_noCapital d

/-- The parameters of the examples: ASCII text, every text parses. -/
def Spec.asciiEnv : TextEnv := { lower := lowerAscii, ws := fun c => c == ' ', num := some, words := reservedTexts, parses := fun _ => true }

/-- A dataset with two parameters of the given names. -/
def Spec.twoNames (v w : String) : Dataset := { name := "cement production", parameters := [{ amount := 1, id := "x", name := "x", unit := "kg", var := some v }, { amount := 2, id := "y", name := "y", unit := "kg", var := some w }] }

/-- C53: names that differ in case only pass the check and are the same afterwards. -/
theorem C53_lowercase_merges (M : MathEnv) :
    variableNamesAreUnique [twoNames "clinker_PV" "clinker_pv"] = .ok [twoNames "clinker_PV" "clinker_pv"] ∧
    fixEcoinventParameters M asciiEnv (twoNames "clinker_PV" "clinker_pv") = .ok (twoNames "clinker_pv" "clinker_pv") ∧
    variableNamesAreUnique [twoNames "clinker_pv" "clinker_pv"] = .error .parameterizationError := by
  refine ⟨by decide +kernel, ?_, by decide +kernel⟩
  have h1 : replaceImplicitReferences (fixSpecificIssues (twoNames "clinker_PV" "clinker_pv")) = .ok (twoNames "clinker_PV" "clinker_pv") := by decide +kernel
  have h2 : repairAll M (twoNames "clinker_PV" "clinker_pv") = .ok (twoNames "clinker_PV" "clinker_pv") := rfl
  have h3 : fixKnownBadFormulas (twoNames "clinker_PV" "clinker_pv") = .ok (twoNames "clinker_PV" "clinker_pv") := by decide +kernel
  have h4 : lowercaseAllParameters asciiEnv.lower (twoNames "clinker_PV" "clinker_pv") = .ok (twoNames "clinker_pv" "clinker_pv") := by decide +kernel
  have h5 : fixMathFormulas asciiEnv.ws asciiEnv.num (twoNames "clinker_pv" "clinker_pv") = .ok (twoNames "clinker_pv" "clinker_pv") := by decide +kernel
  have h6 : replaceReservedWords asciiEnv.words asciiEnv.parses (twoNames "clinker_pv" "clinker_pv") = .ok (twoNames "clinker_pv" "clinker_pv") := by decide +kernel
  have h7 : deleteUnparsableFormulas asciiEnv.parses (twoNames "clinker_pv" "clinker_pv") = .ok (twoNames "clinker_pv" "clinker_pv") := by decide +kernel
  unfold fixEcoinventParameters
  simp only [h1, h2, h3, h4, h5, h6, h7, ebind_ok]

/-- A dataset whose parameter has the name that is made for a referenced exchange. -/
def Spec.takenName : Dataset :=
  { refExample with parameters := [{ amount := 1, id := "x", name := "x", unit := "kg", var := some "ref_replacement_0000000a000000000000000000000001" }] }

/-- C53: the name made for a referenced exchange may be taken: the check passes, and the names are no longer different afterwards. -/
theorem C53_reference_name_taken :
    variableNamesAreUnique [takenName] = .ok [takenName] ∧
    ∃ d1, replaceImplicitReferences (fixSpecificIssues takenName) = .ok d1 ∧ ¬ (varNames d1).Nodup := by
  refine ⟨by decide +kernel, _, (by decide +kernel : replaceImplicitReferences (fixSpecificIssues takenName) = .ok { refExampleOut with parameters := takenName.parameters }), ?_⟩
  decide +kernel

/-- The hypotheses of `C53_after_partial` are met: different names stay different, and a reserved word is capitalised. -/
example (M : MathEnv) : ∃ d1 out, replaceImplicitReferences (fixSpecificIssues (twoNames "Yield" "clinker_PV")) = .ok d1 ∧
    fixEcoinventParameters M asciiEnv (twoNames "Yield" "clinker_PV") = .ok out ∧ varNames out = ["YIELD", "clinker_pv"] := by
  have h1 : replaceImplicitReferences (fixSpecificIssues (twoNames "Yield" "clinker_PV")) = .ok (twoNames "Yield" "clinker_PV") := by decide +kernel
  have h2 : repairAll M (twoNames "Yield" "clinker_PV") = .ok (twoNames "Yield" "clinker_PV") := rfl
  have h3 : fixKnownBadFormulas (twoNames "Yield" "clinker_PV") = .ok (twoNames "Yield" "clinker_PV") := by decide +kernel
  have h4 : lowercaseAllParameters asciiEnv.lower (twoNames "Yield" "clinker_PV") = .ok (twoNames "yield" "clinker_pv") := by decide +kernel
  have h5 : fixMathFormulas asciiEnv.ws asciiEnv.num (twoNames "yield" "clinker_pv") = .ok (twoNames "yield" "clinker_pv") := by decide +kernel
  have h6 : replaceReservedWords asciiEnv.words asciiEnv.parses (twoNames "yield" "clinker_pv") = .ok (twoNames "YIELD" "clinker_pv") := by decide +kernel
  have h7 : deleteUnparsableFormulas asciiEnv.parses (twoNames "YIELD" "clinker_pv") = .ok (twoNames "YIELD" "clinker_pv") := by decide +kernel
  refine ⟨_, twoNames "YIELD" "clinker_pv", h1, ?_, by decide +kernel⟩
  unfold fixEcoinventParameters
  simp only [h1, h2, h3, h4, h5, h6, h7, ebind_ok]

end Ocelot
