import Verif.Proofs.Params
import Verif.Spec.Params
import Verif.Props.Uncertainty

/-! # Properties C53, C54, C56: variable names, production volume parameters, recalculation -/

namespace Ocelot
open Spec

/-! ## C53 -/

theorem uniqueLoop_ok (l : List NumObj) (found : List String) :
    uniqueLoop l found = .ok () ↔
      ((l.filterMap (·.var)).filter fun v => v != "").Nodup ∧
      ∀ v ∈ (l.filterMap (·.var)).filter (fun v => v != ""), v ∉ found := by
  induction l generalizing found with
  | nil => simp [uniqueLoop]
  | cons o l ih =>
    unfold uniqueLoop
    rcases hv : o.var with _ | v
    · simp only [hv, List.filterMap_cons]
      exact ih found
    · simp only [hv, List.filterMap_cons]
      by_cases h0 : v = ""
      · subst h0
        rw [if_pos rfl, ih found]
        simp
      · rw [if_neg h0]
        have hne : (v != "") = true := by simpa using h0
        rw [List.filter_cons_of_pos (p := fun v => v != "") hne]
        by_cases hf : v ∈ found
        · rw [if_pos hf]
          simp only [reduceCtorEq, false_iff, not_and]
          intro _ h
          exact h v (by simp) hf
        · rw [if_neg hf, ih (v :: found), List.nodup_cons]
          constructor
          · rintro ⟨h1, h2⟩
            refine ⟨⟨fun hv => h2 v hv (by simp), h1⟩, ?_⟩
            intro w hw
            rcases List.mem_cons.mp hw with rfl | hw
            · exact hf
            · exact fun h => h2 w hw (by simp [h])
          · rintro ⟨⟨h1, h2⟩, h3⟩
            refine ⟨h2, ?_⟩
            intro w hw h
            rcases List.mem_cons.mp h with rfl | h
            · exact h1 hw
            · exact h3 w (by simp [hw]) h

theorem filterMap_isParam (l : List NumObj) :
    (l.filter NumObj.isParam).filterMap (·.var) = l.filterMap (·.var) := by
  induction l with
  | nil => rfl
  | cons o l ih =>
    rcases hv : o.var with _ | v
    · by_cases hp : o.isParam = true
      · rw [List.filter_cons_of_pos hp]; simp [hv, ih]
      · rw [List.filter_cons_of_neg hp]; simp [hv, ih]
    · have hp : o.isParam = true := by simp [NumObj.isParam, hv]
      rw [List.filter_cons_of_pos hp]; simp [hv, ih]

theorem uniqueLoop_error {l : List NumObj} {found : List String} {e : Err}
    (h : uniqueLoop l found = .error e) : e = .parameterizationError := by
  induction l generalizing found with
  | nil => cases h
  | cons o l ih =>
    unfold uniqueLoop at h
    split at h
    · exact ih h
    · split at h
      · exact ih h
      · split at h
        · cases h; rfl
        · exact ih h

/-- C53: `variable_names_are_unique` accepts (and then returns the data unchanged) exactly the data in
which no dataset has a variable name twice, and raises `ParameterizationError` otherwise. -/
theorem C53_unique_exact (data : List Dataset) :
    (variableNamesAreUnique data = .ok data ∧ ∀ ds ∈ data, (varNames ds).Nodup) ∨
    (variableNamesAreUnique data = .error .parameterizationError ∧ ∃ ds ∈ data, ¬ (varNames ds).Nodup) := by
  have hds : ∀ ds : Dataset, uniqueLoop (ds.numObjs.filter NumObj.isParam) [] = .ok () ↔ (varNames ds).Nodup := by
    intro ds
    rw [uniqueLoop_ok, filterMap_isParam]
    simp [varNames]
  unfold variableNamesAreUnique
  rcases hf : forE (fun ds : Dataset => uniqueLoop (ds.numObjs.filter NumObj.isParam) []) data with e | u
  · right
    obtain ⟨ds, hm, he⟩ := forE_error hf
    have := uniqueLoop_error he
    subst this
    refine ⟨rfl, ds, hm, ?_⟩
    rw [← hds, he]
    simp
  · left
    refine ⟨rfl, ?_⟩
    intro ds hm
    rw [← hds]
    exact (forE_ok_iff.mp hf) ds hm

example : variableNamesAreUnique [{ name := "a", exchanges := [{ name := "p", type := .referenceProduct, amount := 1, var := some "x", pv := some { amount := 2, var := some "x" } }] }] = .error .parameterizationError := by
  decide +kernel
example : ∃ out, variableNamesAreUnique [{ name := "a", exchanges := [{ name := "p", type := .referenceProduct, amount := 1, var := some "x", pv := some { amount := 2, var := some "y" } }] }] = .ok out := ⟨_, rfl⟩

/-! ## C54 -/

theorem pvParameter_none {uuid : String} {e : Exchange} (hp : e.pv = none) :
    pvParameter uuid e = (e, []) := by
  unfold pvParameter; rw [hp]

theorem pvParameter_var {uuid : String} {e : Exchange} {pv : PV} {v : String} (hp : e.pv = some pv)
    (hv : pv.var = some v) : pvParameter uuid e =
      ({ e with pv := some { pv with var := none, formula := none } }, [shiftedParameter uuid e pv v]) := by
  unfold pvParameter; rw [hp]; simp only [hv]

theorem pvParameter_novar {uuid : String} {e : Exchange} {pv : PV} (hp : e.pv = some pv)
    (hv : pv.var = none) : pvParameter uuid e =
      ({ e with pv := some { pv with formula := none } }, []) := by
  unfold pvParameter; rw [hp]; simp only [hv]

theorem pvParameter_cases (uuid : String) (e : Exchange) :
    (e.pv = none ∧ pvParameter uuid e = (e, [])) ∨
    (∃ pv, e.pv = some pv ∧ pv.var = none ∧ pvParameter uuid e = ({ e with pv := some { pv with var := none, formula := none } }, [])) ∨
    (∃ pv v, e.pv = some pv ∧ pv.var = some v ∧ pvParameter uuid e = ({ e with pv := some { pv with var := none, formula := none } }, [shiftedParameter uuid e pv v])) := by
  rcases hp : e.pv with _ | pv
  · exact .inl ⟨rfl, pvParameter_none hp⟩
  · rcases hv : pv.var with _ | v
    · refine .inr (.inl ⟨pv, rfl, hv, ?_⟩)
      rw [pvParameter_novar hp hv, ← hv]
    · exact .inr (.inr ⟨pv, v, rfl, hv, pvParameter_var hp hv⟩)

theorem pvParameter_named (uuid : String) (e : Exchange) :
    (named e.numObjs).Perm (named (pvParameter uuid e).1.numObjs ++ named ((pvParameter uuid e).2.map Param.toNumObj)) := by
  rcases pvParameter_cases uuid e with ⟨hp, h⟩ | ⟨pv, hp, hv, h⟩ | ⟨pv, v, hp, hv, h⟩
  · rw [h]; simp [named]
  · rw [h]
    simp only [Exchange.numObjs, hp, named, Option.toList, List.map_cons, List.map_nil, List.cons_append, List.nil_append, List.filterMap_cons, hv, Option.map_none, List.filterMap_nil, List.append_nil]
    exact List.Perm.refl _
  · rw [h]
    simp only [Exchange.numObjs, hp, named, Option.toList, List.map_cons, List.map_nil, List.cons_append, List.nil_append, List.filterMap_cons, hv, Option.map_some, Option.map_none, List.filterMap_nil, shiftedParameter]
    rcases e.var with _ | w
    · exact (List.perm_append_singleton _ _).symm
    · exact List.Perm.cons _ (List.perm_append_singleton _ _).symm

theorem named_append (a b : List NumObj) : named (a ++ b) = named a ++ named b := by simp [named]

/-- C54: after `create_pv_parameters` no production volume has a variable or formula; the named
parameters are the same (as a multiset of name, amount, formula); exchanges, production volume amounts and
properties are otherwise unchanged; existing dataset parameters are kept. -/
theorem C54_pv_parameters (uuid : Exchange → String) (ds : Dataset) :
    let ds' := createPvParameters uuid ds
    (∀ e ∈ ds'.exchanges, ∀ pv, e.pv = some pv → pv.var = none ∧ pv.formula = none) ∧
    (named ds.numObjs).Perm (named ds'.numObjs) ∧
    List.Forall₂ (fun e e' => e' = { e with pv := e'.pv } ∧
      e'.pv = e.pv.map fun p => { p with var := none, formula := none }) ds.exchanges ds'.exchanges ∧
    ds' = { ds with exchanges := ds'.exchanges, parameters := ds'.parameters } ∧
    ∃ new, ds'.parameters = ds.parameters ++ new ∧ ∀ p ∈ new, p.var ≠ none := by
  intro ds'
  refine ⟨?_, ?_, ?_, rfl, _, rfl, ?_⟩
  · intro e he pv hpv
    simp only [ds', createPvParameters, List.mem_map] at he
    obtain ⟨a, _, rfl⟩ := he
    rcases pvParameter_cases (uuid a) a with ⟨hp, h⟩ | ⟨q, hp, hv, h⟩ | ⟨q, v, hp, hv, h⟩ <;> rw [h] at hpv
    · rw [hp] at hpv; cases hpv
    · cases hpv; exact ⟨rfl, rfl⟩
    · cases hpv; exact ⟨rfl, rfl⟩
  · simp only [ds', createPvParameters, Dataset.numObjs, named_append, List.map_append]
    have key : ∀ l : List Exchange, (named (l.flatMap Exchange.numObjs)).Perm
        (named ((l.map fun e => (pvParameter (uuid e) e).1).flatMap Exchange.numObjs) ++
         named ((l.flatMap fun e => (pvParameter (uuid e) e).2).map Param.toNumObj)) := by
      intro l
      induction l with
      | nil => simp [named]
      | cons e l ih =>
        simp only [List.flatMap_cons, List.map_cons, List.map_append, named_append]
        refine ((pvParameter_named (uuid e) e).append ih).trans ?_
        simp only [List.append_assoc]
        refine List.Perm.append_left _ ?_
        rw [← List.append_assoc, ← List.append_assoc]
        exact List.Perm.append_right _ List.perm_append_comm
    refine ((key ds.exchanges).append_right _).trans ?_
    simp only [List.append_assoc]
    exact List.Perm.append_left _ List.perm_append_comm
  · simp only [ds', createPvParameters]
    rw [List.forall₂_map_right_iff]
    apply List.forall₂_same.mpr
    intro e _
    rcases pvParameter_cases (uuid e) e with ⟨hp, h⟩ | ⟨q, hp, hv, h⟩ | ⟨q, v, hp, hv, h⟩ <;> rw [h]
    · exact ⟨rfl, by rw [hp]; rfl⟩
    · exact ⟨rfl, by rw [hp]; rfl⟩
    · exact ⟨rfl, by rw [hp]; rfl⟩
  · intro p hp
    obtain ⟨e, _, he⟩ := List.mem_flatMap.mp hp
    rcases pvParameter_cases (uuid e) e with ⟨hp, h⟩ | ⟨q, hp, hv, h⟩ | ⟨q, v, hp, hv, h⟩ <;> rw [h] at he
    · cases he
    · cases he
    · simp only [List.mem_singleton] at he; subst he; simp [shiftedParameter]

example : createPvParameters (fun _ => "id") { name := "a", exchanges := [{ name := "p", type := .referenceProduct, amount := 1, unit := "kg", pv := some { amount := 2, var := some "x", formula := some "1+1" } }] } = { name := "a", exchanges := [{ name := "p", type := .referenceProduct, amount := 1, unit := "kg", pv := some { amount := 2 } }], parameters := [{ unit := "kg", id := "id", name := "Shifted PV parameter: x", var := some "x", amount := 2, formula := some "1+1" }] } := by
  decide +kernel

/-! ## C56 -/

theorem evalBind_ok {ε β γ : Type} (a : β) (f : β → Except ε γ) : (Except.ok a >>= f) = f a := rfl

theorem eval_sound (F : FormulaEnv) (σ : String → Option ℚ) (e : Expr) :
    (∀ q, e.eval F σ = .ok q → Evaluates F σ e q) ∧ (e.eval F σ = .error .zeroDivision → DividesByZero F σ e) := by
  induction e with
  | num q => exact ⟨fun _ h => (by cases h; exact .num _), fun h => by cases h⟩
  | var n =>
    rw [Expr.eval]
    rcases h : σ n with _ | q
    · exact ⟨fun _ h => (by cases h), fun h => by cases h⟩
    · exact ⟨fun _ h' => (by cases h'; exact .var h), fun h => by cases h⟩
  | neg a iha =>
    rw [Expr.eval]
    rcases ha : a.eval F σ with e | x
    · exact ⟨fun _ h => (by cases h), fun h => by cases h; exact .inNeg (iha.2 ha)⟩
    · exact ⟨fun _ h => (by cases h; exact .neg (iha.1 _ ha)), fun h => by cases h⟩
  | add a b iha ihb =>
    rw [Expr.eval]
    rcases ha : a.eval F σ with e | x
    · exact ⟨fun _ h => (by cases h), fun h => by cases h; exact .inAdd₁ (iha.2 ha)⟩
    rcases hb : b.eval F σ with e | y
    · exact ⟨fun _ h => (by cases h), fun h => by cases h; exact .inAdd₂ (iha.1 _ ha) (ihb.2 hb)⟩
    · exact ⟨fun _ h => (by cases h; exact .add (iha.1 _ ha) (ihb.1 _ hb)), fun h => by cases h⟩
  | sub a b iha ihb =>
    rw [Expr.eval]
    rcases ha : a.eval F σ with e | x
    · exact ⟨fun _ h => (by cases h), fun h => by cases h; exact .inSub₁ (iha.2 ha)⟩
    rcases hb : b.eval F σ with e | y
    · exact ⟨fun _ h => (by cases h), fun h => by cases h; exact .inSub₂ (iha.1 _ ha) (ihb.2 hb)⟩
    · exact ⟨fun _ h => (by cases h; exact .sub (iha.1 _ ha) (ihb.1 _ hb)), fun h => by cases h⟩
  | mul a b iha ihb =>
    rw [Expr.eval]
    rcases ha : a.eval F σ with e | x
    · exact ⟨fun _ h => (by cases h), fun h => by cases h; exact .inMul₁ (iha.2 ha)⟩
    rcases hb : b.eval F σ with e | y
    · exact ⟨fun _ h => (by cases h), fun h => by cases h; exact .inMul₂ (iha.1 _ ha) (ihb.2 hb)⟩
    · exact ⟨fun _ h => (by cases h; exact .mul (iha.1 _ ha) (ihb.1 _ hb)), fun h => by cases h⟩
  | div a b iha ihb =>
    rw [Expr.eval]
    rcases ha : a.eval F σ with e | x
    · exact ⟨fun _ h => (by cases h), fun h => by cases h; exact .inDiv₁ (iha.2 ha)⟩
    rcases hb : b.eval F σ with e | y
    · exact ⟨fun _ h => (by cases h), fun h => by cases h; exact .inDiv₂ (iha.1 _ ha) (ihb.2 hb)⟩
    simp only [evalBind_ok]
    by_cases hy : y = 0
    · rw [if_pos hy]
      exact ⟨fun _ h => (by cases h), fun _ => .div (iha.1 _ ha) (ihb.1 _ (by rw [hb, hy]))⟩
    · rw [if_neg hy]
      exact ⟨fun _ h => (by cases h; exact .div (iha.1 _ ha) (ihb.1 _ hb) hy), fun h => (by cases h)⟩
  | lt a b iha ihb =>
    rw [Expr.eval]
    rcases ha : a.eval F σ with e | x
    · exact ⟨fun _ h => (by cases h), fun h => by cases h; exact .inLt₁ (iha.2 ha)⟩
    rcases hb : b.eval F σ with e | y
    · exact ⟨fun _ h => (by cases h), fun h => by cases h; exact .inLt₂ (iha.1 _ ha) (ihb.2 hb)⟩
    simp only [evalBind_ok]
    by_cases hy : x < y
    · rw [if_pos hy]
      exact ⟨fun _ h => (by cases h; exact .less (iha.1 _ ha) (ihb.1 _ hb) hy), fun h => (by cases h)⟩
    · rw [if_neg hy]
      exact ⟨fun _ h => (by cases h; exact .notLess (iha.1 _ ha) (ihb.1 _ hb) hy), fun h => (by cases h)⟩
  | cond c a b ihc iha ihb =>
    rw [Expr.eval]
    rcases hc : c.eval F σ with e | x
    · exact ⟨fun _ h => (by cases h), fun h => by cases h; exact .inCond (ihc.2 hc)⟩
    simp only [evalBind_ok]
    by_cases hx : x ≠ 0
    · rw [if_pos hx]
      exact ⟨fun q h => .yes (ihc.1 _ hc) hx (iha.1 q h), fun h => .inYes (ihc.1 _ hc) hx (iha.2 h)⟩
    · rw [if_neg hx]
      rw [not_not] at hx
      subst hx
      exact ⟨fun q h => .no (ihc.1 _ hc) (ihb.1 q h), fun h => .inNo (ihc.1 _ hc) (ihb.2 h)⟩
  | call1 f a iha =>
    rw [Expr.eval]
    rcases ha : a.eval F σ with e | x
    · exact ⟨fun _ h => (by cases h), fun h => by cases h; exact .inCall1 (iha.2 ha)⟩
    · exact ⟨fun q h => .call1 (iha.1 _ ha) h, fun h => .call1 (iha.1 _ ha) h⟩
  | call2 f a b iha ihb =>
    rw [Expr.eval]
    rcases ha : a.eval F σ with e | x
    · exact ⟨fun _ h => (by cases h), fun h => by cases h; exact .inCall2₁ (iha.2 ha)⟩
    rcases hb : b.eval F σ with e | y
    · exact ⟨fun _ h => (by cases h), fun h => by cases h; exact .inCall2₂ (iha.1 _ ha) (ihb.2 hb)⟩
    · exact ⟨fun q h => .call2 (iha.1 _ ha) (ihb.1 _ hb) h, fun h => .call2 (iha.1 _ ha) (ihb.1 _ hb) h⟩

theorem eval_complete (F : FormulaEnv) (σ : String → Option ℚ) {e : Expr} {q : ℚ} (h : Evaluates F σ e q) : e.eval F σ = .ok q := by
  induction h with
  | num q => rfl
  | var h => rw [Expr.eval, h]
  | neg _ iha => rw [Expr.eval, iha]; rfl
  | add _ _ iha ihb => rw [Expr.eval, iha, ihb]; rfl
  | sub _ _ iha ihb => rw [Expr.eval, iha, ihb]; rfl
  | mul _ _ iha ihb => rw [Expr.eval, iha, ihb]; rfl
  | div _ _ hy iha ihb => rw [Expr.eval, iha, ihb]; simp only [evalBind_ok, if_neg hy]; rfl
  | less _ _ hy iha ihb => rw [Expr.eval, iha, ihb]; simp only [evalBind_ok, if_pos hy]; rfl
  | notLess _ _ hy iha ihb => rw [Expr.eval, iha, ihb]; simp only [evalBind_ok, if_neg hy]; rfl
  | yes _ hx _ ihc iha => rw [Expr.eval, ihc]; simp only [evalBind_ok, if_pos hx, iha]
  | no _ _ ihc ihb => rw [Expr.eval, ihc]; simp [evalBind_ok, ihb]
  | call1 _ h iha => rw [Expr.eval, iha]; exact h
  | call2 _ _ h iha ihb => rw [Expr.eval, iha, ihb]; exact h

theorem eval_zero (F : FormulaEnv) (σ : String → Option ℚ) {e : Expr} (h : DividesByZero F σ e) : e.eval F σ = .error .zeroDivision := by
  induction h with
  | div ha hb => rw [Expr.eval, eval_complete F σ ha, eval_complete F σ hb]; simp [evalBind_ok]; rfl
  | call1 ha h => rw [Expr.eval, eval_complete F σ ha]; exact h
  | call2 ha hb h => rw [Expr.eval, eval_complete F σ ha, eval_complete F σ hb]; exact h
  | inNeg _ ih => rw [Expr.eval, ih]; rfl
  | inAdd₁ _ ih => rw [Expr.eval, ih]; rfl
  | inAdd₂ ha _ ih => rw [Expr.eval, eval_complete F σ ha, ih]; rfl
  | inSub₁ _ ih => rw [Expr.eval, ih]; rfl
  | inSub₂ ha _ ih => rw [Expr.eval, eval_complete F σ ha, ih]; rfl
  | inMul₁ _ ih => rw [Expr.eval, ih]; rfl
  | inMul₂ ha _ ih => rw [Expr.eval, eval_complete F σ ha, ih]; rfl
  | inDiv₁ _ ih => rw [Expr.eval, ih]; rfl
  | inDiv₂ ha _ ih => rw [Expr.eval, eval_complete F σ ha, ih]; rfl
  | inLt₁ _ ih => rw [Expr.eval, ih]; rfl
  | inLt₂ ha _ ih => rw [Expr.eval, eval_complete F σ ha, ih]; rfl
  | inCond _ ih => rw [Expr.eval, ih]; rfl
  | inYes hc hx _ ih => rw [Expr.eval, eval_complete F σ hc]; simp only [evalBind_ok, if_pos hx, ih]
  | inNo hc _ ih => rw [Expr.eval, eval_complete F σ hc]; simp [evalBind_ok, ih]
  | inCall1 _ ih => rw [Expr.eval, ih]; rfl
  | inCall2₁ _ ih => rw [Expr.eval, ih]; rfl
  | inCall2₂ ha _ ih => rw [Expr.eval, eval_complete F σ ha, ih]; rfl

/-- C56: formulas are evaluated by the usual rules of arithmetic. -/
theorem C56_arithmetic (F : FormulaEnv) (σ : String → Option ℚ) (e : Expr) (q : ℚ) :
    (e.eval F σ = .ok q ↔ Evaluates F σ e q) ∧ (e.eval F σ = .error .zeroDivision ↔ DividesByZero F σ e) :=
  ⟨⟨(eval_sound F σ e).1 q, eval_complete F σ⟩, ⟨(eval_sound F σ e).2, eval_zero F σ⟩⟩

theorem tolerantEval_ok {F : FormulaEnv} {σ : String → Option ℚ} {s : String} {q : ℚ} :
    tolerantEval F σ s = .ok q ↔ FormulaValue F σ s q := by
  unfold tolerantEval FormulaValue
  rcases F.parse s with _ | e
  · simp
  · simp only [Option.some.injEq, exists_eq_left', ← (C56_arithmetic F σ e _).1, ← (C56_arithmetic F σ e q).2]
    rcases he : e.eval F σ with err | v
    · cases err
      · simp [eq_comm]
      · simp
    · simp

/-- Objects with a variable. -/
theorem extract_mem {ds : Dataset} {k : String} {p : NamedParam}
    (h : (extractNamedParameters ds).lookup k = some p) :
    ∃ o ∈ ds.numObjs, o.var = some k ∧ p = (o.amount, o.formula) := by
  obtain ⟨o, ho, hk, hv⟩ := dictOf_mem_src (lookup_mem h)
  rw [List.mem_filter] at ho
  obtain ⟨v, hov⟩ := Option.isSome_iff_exists.mp ho.2
  refine ⟨o, ho.1, ?_, hv.symm⟩
  rw [hov] at hk ⊢
  simpa using hk

theorem extract_keys (ds : Dataset) (k : String) :
    k ∈ (extractNamedParameters ds).map (·.1) ↔ ∃ o ∈ ds.numObjs, o.var = some k := by
  unfold extractNamedParameters
  rw [dictOf_keys_mem]
  constructor
  · rintro ⟨o, ho, hk⟩
    rw [List.mem_filter] at ho
    obtain ⟨v, hov⟩ := Option.isSome_iff_exists.mp ho.2
    refine ⟨o, ho.1, ?_⟩
    rw [hov] at hk ⊢
    simpa using hk
  · rintro ⟨o, ho, hk⟩
    exact ⟨o, List.mem_filter.mpr ⟨ho, by simp [hk]⟩, by simp [hk]⟩

theorem orderOK_of_admissible {F : FormulaEnv} {ds : Dataset} {order : List String}
    (h : AdmissibleOrder F ds order) : OrderOK F (extractNamedParameters ds) order where
  nodup := h.nodup
  keys := fun k => by rw [h.complete, extract_keys]
  deps := by
    intro pre k post hpre p hp n hn
    obtain ⟨o, ho, hv, rfl⟩ := extract_mem hp
    unfold depNames at hn
    rcases hf : o.formula with _ | f
    · simp [hf] at hn
    · simp only [hf] at hn
      split at hn
      · cases hn
      · rcases he : F.parse f with _ | e
        · simp [he] at hn
        · simp only [he, Option.map_some, Option.getD_some] at hn
          exact h.respects pre k post hpre o ho hv f e hf he n hn

/-- C56: the result of recalculation - value or exception - does not depend on the evaluation order. -/
theorem C56_order_independent (M : MathEnv) (F : FormulaEnv) (ds : Dataset) (o₁ o₂ : List String)
    (h₁ : AdmissibleOrder F ds o₁) (h₂ : AdmissibleOrder F ds o₂) :
    recalculate M F o₁ ds = recalculate M F o₂ ds := by
  unfold recalculate
  rw [evaluateParams_order (orderOK_of_admissible h₁) (orderOK_of_admissible h₂)]

/-- Two objects with the same variable are the same object. -/
def UniqueVars (ds : Dataset) : Prop := (ds.numObjs.filterMap (·.var)).Nodup

theorem extract_lookup {ds : Dataset} (hu : UniqueVars ds) {o : NumObj} {v : String} (ho : o ∈ ds.numObjs)
    (hv : o.var = some v) : (extractNamedParameters ds).lookup v = some (o.amount, o.formula) := by
  have hk := (extract_keys ds v).mpr ⟨o, ho, hv⟩
  obtain ⟨p, hp⟩ := (lookup_isSome_iff _ _).mp hk
  obtain ⟨o', ho', hv', rfl⟩ := extract_mem hp
  have : o' = o := by
    unfold UniqueVars at hu
    rw [List.nodup_iff_injective_getElem] at hu
    clear hp hk
    generalize ds.numObjs = l at *
    induction l with
    | nil => cases ho
    | cons a l ih =>
      have hu' : ((a :: l).filterMap (·.var)).Nodup := List.nodup_iff_injective_getElem.mpr hu
      rcases ha : a.var with _ | w
      · simp only [List.filterMap_cons, ha] at hu'
        have h1 : o ∈ l := by
          rcases List.mem_cons.mp ho with rfl | h
          · rw [ha] at hv; cases hv
          · exact h
        have h2 : o' ∈ l := by
          rcases List.mem_cons.mp ho' with rfl | h
          · rw [ha] at hv'; cases hv'
          · exact h
        exact ih (List.nodup_iff_injective_getElem.mp hu') h1 h2
      · simp only [List.filterMap_cons, ha, List.nodup_cons] at hu'
        rcases List.mem_cons.mp ho with rfl | h1 <;> rcases List.mem_cons.mp ho' with rfl | h2
        · rfl
        · rw [ha] at hv; cases hv
          exact absurd (List.mem_filterMap.mpr ⟨o', h2, hv'⟩) hu'.1
        · rw [ha] at hv'; cases hv'
          exact absurd (List.mem_filterMap.mpr ⟨o, h1, hv⟩) hu'.1
        · exact ih (List.nodup_iff_injective_getElem.mp hu'.2) h1 h2
  rw [← this, hp]

theorem recalcObj_frame {F : FormulaEnv} {σ : String → Option ℚ} {o o' : NumObj}
    (h : recalcObj F σ o = .ok o') : o' = { o with amount := o'.amount } := by
  unfold recalcObj at h
  split at h
  · obtain ⟨v, _, h⟩ := bind_eq_ok.mp h
    cases h; rfl
  · split at h
    · split at h
      · cases h; rfl
      · cases h
    · cases h; rfl

theorem recalc_inv {M : MathEnv} {F : FormulaEnv} {order : List String} {ds ds' : Dataset}
    (h : recalculate M F order ds = .ok ds') :
    ∃ σ mid, evaluateParams F (extractNamedParameters ds) order F.base = .ok σ ∧
      ds.mapNumE (recalcObj F σ) = .ok mid ∧ mid.mapNumE (repair M) = .ok ds' := by
  unfold recalculate at h
  obtain ⟨σ, hσ, h⟩ := bind_eq_ok.mp h
  obtain ⟨mid, hm, h⟩ := bind_eq_ok.mp h
  exact ⟨σ, mid, hσ, hm, h⟩

/-- What recalculation does to one object, when the names finally mean `σ`. -/
structure Spec.Recalculated (F : FormulaEnv) (σ : String → Option ℚ) (o o' : NumObj) : Prop where
  var : o'.var = o.var
  formula : o'.formula = o.formula
  named : ∀ v, o.var = some v → σ v = some o'.amount
  value : ∀ f, o.formula = some f → FormulaValue F σ f o'.amount
  fixed : o.formula = none → o'.amount = o.amount

/-- The value of every object: the heart of C56. -/
theorem recalc_obj {M : MathEnv} {F : FormulaEnv} (hempty : F.parse "" = none) {order : List String}
    {ds : Dataset} (ho : AdmissibleOrder F ds order) (hu : UniqueVars ds) {σ : String → Option ℚ}
    (hσ : evaluateParams F (extractNamedParameters ds) order F.base = .ok σ) {o m o' : NumObj}
    (ho' : o ∈ ds.numObjs) (hmm : recalcObj F σ o = .ok m) (hrep : repair M m = .ok o') :
    Recalculated F σ o o' := by
  have hsol := evaluateParams_solves (orderOK_of_admissible ho) hσ
  have hr := repair_frame hrep
  have hfr := recalcObj_frame hmm
  have ha : o'.amount = m.amount := by rw [hr]
  refine ⟨by rw [hr, hfr], by rw [hr, hfr], ?_, ?_, ?_⟩
  · intro v hov
    obtain ⟨q, hq, hpv⟩ := hsol.1 v _ (extract_lookup hu ho' hov)
    rw [hq, ha]
    unfold recalcObj at hmm
    unfold paramValue at hpv
    rcases hof : o.formula with _ | f
    · rw [hof] at hmm
      simp only [hov, hq] at hmm
      cases hmm
      rfl
    · rw [hof] at hmm hpv
      simp only at hmm hpv
      obtain ⟨w, hw, hmm⟩ := bind_eq_ok.mp hmm
      cases hmm
      split at hpv
      · next h0 => rw [h0] at hw; simp [tolerantEval, hempty] at hw
      · rw [hpv] at hw; cases hw; rfl
  · intro f hof
    rw [← tolerantEval_ok, ha]
    unfold recalcObj at hmm
    rw [hof] at hmm
    obtain ⟨w, hw, hmm⟩ := bind_eq_ok.mp hmm
    cases hmm
    exact hw
  · intro hof
    unfold recalcObj at hmm
    rw [hof] at hmm
    rcases hov : o.var with _ | v
    · rw [hov] at hmm; cases hmm; exact ha
    · obtain ⟨q, hq, hpv⟩ := hsol.1 v _ (extract_lookup hu ho' hov)
      simp only [hov, hq] at hmm
      cases hmm
      rw [ha]
      simp only [paramValue, hof] at hpv
      cases hpv
      rfl

theorem forall₂_mem_both {α β : Type} {l : List α} {r : List β} {R : α → β → Prop} (hR : List.Forall₂ R l r) :
    List.Forall₂ (fun o o' => o ∈ l ∧ R o o') l r := by
  induction hR with
  | nil => exact .nil
  | cons h _ ih => exact .cons ⟨by simp, h⟩ (ih.imp fun _ _ h => ⟨by simp [h.1], h.2⟩)

theorem Spec.SameExc.trans {a b c : Exchange} (h : SameExc a b) (h' : SameExc b c) : SameExc a c := by
  obtain ⟨h1, h2, h3⟩ := h
  obtain ⟨h1', h2', h3'⟩ := h'
  refine ⟨by rw [h1', h1], forall₂_trans' h2 h2' ?_, forall₂_trans' h3 h3' ?_⟩
  · intro x y z hxy hyz; rw [hyz, hxy]
  · intro x y z hxy hyz; rw [hyz, hxy]

theorem recalc_values {M : MathEnv} {F : FormulaEnv} (hempty : F.parse "" = none) {order : List String}
    {ds ds' : Dataset} (ho : AdmissibleOrder F ds order) (hu : UniqueVars ds)
    (h : recalculate M F order ds = .ok ds') :
    ∃ σ mid, evaluateParams F (extractNamedParameters ds) order F.base = .ok σ ∧
      ds.mapNumE (recalcObj F σ) = .ok mid ∧ mid.mapNumE (repair M) = .ok ds' ∧
      List.Forall₂ (Recalculated F σ) ds.numObjs ds'.numObjs ∧
      ds' = { ds with exchanges := ds'.exchanges, parameters := ds'.parameters } ∧
      List.Forall₂ (fun e e' => SameExc e e' ∧ Recalculated F σ e.toNumObj e'.toNumObj) ds.exchanges ds'.exchanges ∧
      List.Forall₂ (fun p p' : Param => p' = { p with toNumObj := p'.toNumObj }) ds.parameters ds'.parameters := by
  obtain ⟨σ, mid, hσ, hm, hr⟩ := recalc_inv h
  obtain ⟨a1, a2, a3, a4⟩ := Dataset.mapNumE_inv hm
  obtain ⟨b1, b2, b3, b4⟩ := Dataset.mapNumE_inv hr
  refine ⟨σ, mid, hσ, hm, hr, ?_, by rw [b2, a2], ?_, forall₂_trans' a4 b4 ?_⟩
  · refine forall₂_trans' (forall₂_mem_both (mapE_ok_iff.mp a1)) (mapE_ok_iff.mp b1) ?_
    rintro x y z ⟨hx, hxy⟩ hyz
    exact recalc_obj hempty ho hu hσ hx hxy hyz
  · refine forall₂_trans' (forall₂_mem_both a3) b3 ?_
    rintro x y z ⟨hx, hxy⟩ hyz
    obtain ⟨f1, f2⟩ := Exchange.mapNumE_frame hxy
    obtain ⟨g1, g2⟩ := Exchange.mapNumE_frame hyz
    refine ⟨f1.trans g1, recalc_obj hempty ho hu hσ ?_ f2 g2⟩
    unfold Dataset.numObjs
    exact List.mem_append_left _ (List.mem_flatMap.mpr ⟨x, hx, by simp [Exchange.numObjs]⟩)
  · intro x y z hxy hyz; rw [hyz, hxy]

/-- C56: after a successful recalculation of a dataset with unique variable names, every object with a
formula has the value of its formula under the final values of all named objects (zero on division by
zero), and every object without a formula keeps its amount. Variables and formulas are unchanged. -/
theorem C56_solves (M : MathEnv) (F : FormulaEnv) (hempty : F.parse "" = none) (order : List String)
    (ds ds' : Dataset) (ho : AdmissibleOrder F ds order) (hu : (ds.numObjs.filterMap (·.var)).Nodup)
    (h : recalculate M F order ds = .ok ds') :
    ∃ σ : String → Option ℚ,
      (∀ o' ∈ ds'.numObjs, ∀ v, o'.var = some v → σ v = some o'.amount) ∧
      (∀ n, (∀ o ∈ ds.numObjs, o.var ≠ some n) → σ n = F.base n) ∧
      List.Forall₂ (fun o o' => o'.var = o.var ∧ o'.formula = o.formula ∧
        (∀ f, o.formula = some f → FormulaValue F σ f o'.amount) ∧
        (o.formula = none → o'.amount = o.amount)) ds.numObjs ds'.numObjs ∧
      ds' = { ds with exchanges := ds'.exchanges, parameters := ds'.parameters } ∧
      List.Forall₂ SameExc ds.exchanges ds'.exchanges ∧
      List.Forall₂ (fun p p' : Param => p' = { p with toNumObj := p'.toNumObj }) ds.parameters ds'.parameters := by
  obtain ⟨σ, mid, hσ, -, -, hF, hds, hex, hpar⟩ := recalc_values hempty ho hu h
  refine ⟨σ, ?_, ?_, hF.imp fun _ _ h => ⟨h.1, h.2, h.4, h.5⟩, hds, hex.imp fun _ _ h => h.1, hpar⟩
  · intro o' ho' v hv
    obtain ⟨o, _, h⟩ := forall₂_mem_right hF ho'
    exact h.3 v (by rw [← h.1, hv])
  · intro n hn
    refine (evaluateParams_solves (orderOK_of_admissible ho) hσ).2 n ?_
    rw [extract_keys]
    rintro ⟨o, ho, hv⟩
    exact hn o ho hv

/-- C56: recalculating a recalculated dataset only repairs uncertainties again: evaluation does not
change any amount. -/
theorem C56_idempotent (M : MathEnv) (F : FormulaEnv) (hempty : F.parse "" = none) (order : List String)
    (ds ds' : Dataset) (ho : AdmissibleOrder F ds order) (hu : (ds.numObjs.filterMap (·.var)).Nodup)
    (h : recalculate M F order ds = .ok ds') :
    recalculate M F order ds' = ds'.mapNumE (repair M) := by
  obtain ⟨σ, mid, hσ, hm, hr, hF, -, -, -⟩ := recalc_values hempty ho hu h
  have hsol := evaluateParams_solves (orderOK_of_admissible ho) hσ
  have hkeys : ∀ v, (∃ o ∈ ds'.numObjs, o.var = some v) ↔ ∃ o ∈ ds.numObjs, o.var = some v := by
    intro v
    constructor
    · rintro ⟨o', ho', hv⟩
      obtain ⟨o, ho, h⟩ := forall₂_mem_right hF ho'
      exact ⟨o, ho, by rw [← h.1, hv]⟩
    · rintro ⟨o, ho, hv⟩
      obtain ⟨o', ho', h⟩ := forall₂_mem_left hF ho
      exact ⟨o', ho', by rw [h.1, hv]⟩
  have ho' : AdmissibleOrder F ds' order := by
    refine ⟨ho.nodup, fun v => by rw [ho.complete, hkeys], ?_⟩
    intro pre v post hpre o' ho' hv f e hf he n hn
    obtain ⟨o, hom, hr⟩ := forall₂_mem_right hF ho'
    exact ho.respects pre v post hpre o hom (by rw [← hr.1, hv]) f e (by rw [← hr.2, hf]) he n hn
  have hsol' : Solution F (extractNamedParameters ds') σ := by
    refine ⟨?_, ?_⟩
    · intro k p hp
      obtain ⟨o', ho', hv, rfl⟩ := extract_mem hp
      obtain ⟨o, hom, hr⟩ := forall₂_mem_right hF ho'
      have hov : o.var = some k := by rw [← hr.1, hv]
      refine ⟨o'.amount, hr.3 k hov, ?_⟩
      unfold paramValue
      rcases hf : o'.formula with _ | f
      · rfl
      · simp only
        split
        · rfl
        · exact tolerantEval_ok.mpr (hr.4 f (by rw [← hr.2, hf]))
    · intro n hn
      refine hsol.2 n ?_
      rw [extract_keys] at hn ⊢
      rwa [hkeys] at hn
  unfold recalculate
  rw [evaluateParams_of_solution (orderOK_of_admissible ho') hsol']
  simp only [ebind_ok]
  rw [Dataset.mapNumE_id]
  · rfl
  · intro o' ho'
    obtain ⟨o, hom, hr⟩ := forall₂_mem_right hF ho'
    unfold recalcObj
    rcases hf : o'.formula with _ | f
    · rcases hv : o'.var with _ | v
      · rfl
      · simp only [hr.3 v (by rw [← hr.1, hv])]
        rw [← hv]
        cases o'; simp_all
    · simp only [tolerantEval_ok.mpr (hr.4 f (by rw [← hr.2, hf]))]
      rw [← hf]
      rfl

/-- C56: recalculating again changes no amount, variable or formula; at most an uncertainty is repaired once more. -/
theorem C56_again (M : MathEnv) (F : FormulaEnv) (hempty : F.parse "" = none) (order : List String)
    (ds ds' ds'' : Dataset) (ho : AdmissibleOrder F ds order) (hu : (ds.numObjs.filterMap (·.var)).Nodup)
    (h : recalculate M F order ds = .ok ds') (h' : recalculate M F order ds' = .ok ds'') :
    List.Forall₂ (fun o o' => o' = { o with uncertainty := o'.uncertainty }) ds'.numObjs ds''.numObjs ∧
    ds'' = { ds' with exchanges := ds''.exchanges, parameters := ds''.parameters } ∧
    List.Forall₂ SameExc ds'.exchanges ds''.exchanges := by
  rw [C56_idempotent M F hempty order ds ds' ho hu h] at h'
  obtain ⟨b1, b2, b3, b4⟩ := Dataset.mapNumE_inv h'
  exact ⟨(mapE_ok_iff.mp b1).imp fun o o' hr => (C07_repair_valid M o o' hr).1, b2, b3.imp fun _ _ hx => (Exchange.mapNumE_frame hx).1⟩

/-- C56: without lognormal distributions (whose repair need not be idempotent, C06) recalculating again changes nothing at all. -/
theorem C56_again_same (M : MathEnv) (he : 1 < M.e) (hlog1 : ∀ x, 1 < x → x < M.e → 0 < M.log x ∧ M.log x < 1) (hlog0 : M.log 1 = 0)
    (F : FormulaEnv) (hempty : F.parse "" = none) (order : List String)
    (ds ds' : Dataset) (ho : AdmissibleOrder F ds order) (hu : (ds.numObjs.filterMap (·.var)).Nodup)
    (hln : ∀ o ∈ ds.numObjs, ∀ u, o.uncertainty = some u → u.kind ≠ some .lognormal)
    (h : recalculate M F order ds = .ok ds') : recalculate M F order ds' = .ok ds' := by
  rw [C56_idempotent M F hempty order ds ds' ho hu h]
  obtain ⟨σ, mid, -, hm, hr, -⟩ := recalc_values hempty ho hu h
  refine Dataset.mapNumE_id ?_
  intro o' ho'
  obtain ⟨a1, -⟩ := Dataset.mapNumE_inv hm
  obtain ⟨b1, -⟩ := Dataset.mapNumE_inv hr
  obtain ⟨om, hom, hrep⟩ := forall₂_mem_right (mapE_ok_iff.mp b1) ho'
  obtain ⟨o, hoo, hcalc⟩ := forall₂_mem_right (mapE_ok_iff.mp a1) hom
  refine C06_repair_idempotent_partial M om o' he hlog1 hlog0 ?_ hrep
  intro u vp pv hunc hk
  refine absurd hk (hln o hoo u ?_)
  rw [← hunc]
  unfold recalcObj at hcalc
  split at hcalc
  · obtain ⟨v, -, hv⟩ := bind_eq_ok.mp hcalc
    cases hv; rfl
  · split at hcalc
    · split at hcalc
      · cases hcalc; rfl
      · cases hcalc
    · cases hcalc; rfl

/-- A formula environment with two known formulas, for the examples. -/
def exampleF : FormulaEnv where
  parse s := if s = "x / y" then some (.div (.var "x") (.var "y")) else if s = "x * 2" then some (.mul (.var "x") (.num 2)) else none
  fn1 _ _ := .error .other
  fn2 _ _ _ := .error .other
  base _ := none

/-- A dataset with a chain of parameters and a division by zero. -/
def exampleParamDs : Dataset :=
  { name := "a", exchanges := [{ name := "p", type := .referenceProduct, amount := 3, var := some "x" }, { name := "i", type := .fromTechnosphere, amount := 9, var := some "z", formula := some "x * 2" }, { name := "o", type := .toEnvironment, amount := 7, formula := some "x / y" }], parameters := [{ amount := 0, var := some "y" }] }

example : recalculate sampleM exampleF ["x", "z", "y"] exampleParamDs = .ok { name := "a", exchanges := [{ name := "p", type := .referenceProduct, amount := 3, var := some "x" }, { name := "i", type := .fromTechnosphere, amount := 6, var := some "z", formula := some "x * 2" }, { name := "o", type := .toEnvironment, amount := 0, formula := some "x / y" }], parameters := [{ amount := 0, var := some "y" }] } := by
  decide +kernel

example : AdmissibleOrder exampleF exampleParamDs ["x", "z", "y"] := by
  refine ⟨by decide, ?_, ?_⟩
  · intro v
    simp [exampleParamDs, Dataset.numObjs, Exchange.numObjs]
    tauto
  · intro pre v post hpre o ho hv f e hf he n hn
    simp only [exampleParamDs, Dataset.numObjs, Exchange.numObjs, Option.toList, List.map_nil, List.append_nil, List.map_cons, List.flatMap_cons, List.flatMap_nil, List.cons_append, List.nil_append, List.mem_cons, List.not_mem_nil, or_false] at ho
    rcases ho with rfl | rfl | rfl | rfl
    · cases hf
    · cases hv; cases hf
      have : e = .mul (.var "x") (.num 2) := by
        have h2 : exampleF.parse "x * 2" = some (.mul (.var "x") (.num 2)) := by decide
        rw [h2] at he; cases he; rfl
      subst this
      simp only [Expr.names, List.append_nil, List.mem_singleton] at hn
      subst hn
      intro hc
      rcases pre with _ | ⟨a, pre⟩
      · simp at hpre
      · simp only [List.cons_append, List.cons.injEq] at hpre
        rcases pre with _ | ⟨b, pre⟩
        · simp only [List.nil_append, List.cons.injEq] at hpre
          obtain ⟨-, -, rfl⟩ := hpre
          revert hc; decide
        · rcases pre with _ | ⟨c, pre⟩ <;> simp at hpre
    · cases hv
    · cases hf

end Ocelot
