import Verif.Model.Formula
import Verif.Proofs.Dict
import Verif.Proofs.Uncertainty
import Mathlib.Data.List.Perm.Basic
import Mathlib.Data.List.Lookmap

/-! Lemmas about traversals of numeric objects and parameter evaluation. -/

namespace Ocelot

theorem mapE_map {α β γ : Type} (g : α → β) (f : β → Except Err γ) (l : List α) :
    mapE f (l.map g) = mapE (fun a => f (g a)) l := by
  induction l with
  | nil => rfl
  | cons a l ih => simp [mapE, ih]

/-- A `mapE` whose result is a structure wrapping the result of `f`. -/
theorem mapE_wrap {α : Type} {f : NumObj → Except Err NumObj} {get : α → NumObj} {set : α → NumObj → α}
    (hget : ∀ a o, get (set a o) = o) {l r : List α}
    (h : mapE (fun a => do let q ← f (get a); return set a q) l = .ok r) :
    mapE f (l.map get) = .ok (r.map get) := by
  induction l generalizing r with
  | nil => cases h; rfl
  | cons a l ih =>
    obtain ⟨b, r', hb, hr', rfl⟩ := mapE_cons_ok.mp h
    obtain ⟨q, hq, hb⟩ := bind_eq_ok.mp hb
    cases hb
    simp only [List.map_cons]
    exact mapE_cons_ok.mpr ⟨q, _, hq, ih hr', by rw [hget]⟩

theorem Exchange.mapNumE_numObjs {f : NumObj → Except Err NumObj} {e e' : Exchange}
    (h : e.mapNumE f = .ok e') : mapE f e.numObjs = .ok e'.numObjs := by
  unfold Exchange.mapNumE at h
  obtain ⟨o, ho, h⟩ := bind_eq_ok.mp h
  obtain ⟨pv, hpv, h⟩ := bind_eq_ok.mp h
  obtain ⟨ps, hps, h⟩ := bind_eq_ok.mp h
  cases h
  unfold Exchange.numObjs
  refine mapE_cons_ok.mpr ⟨o, _, ho, ?_, rfl⟩
  refine mapE_append.mpr ⟨_, _, ?_, mapE_wrap (get := Prop'.toNumObj) (set := fun p q => { p with toNumObj := q }) (fun _ _ => rfl) hps, rfl⟩
  rcases hp : e.pv with _ | p
  · rw [hp] at hpv; cases hpv; rfl
  · rw [hp] at hpv
    obtain ⟨q, hq, hpv⟩ := bind_eq_ok.mp hpv
    cases hpv
    exact mapE_cons_ok.mpr ⟨q, _, hq, rfl, rfl⟩

/-- What a traversal may change in an exchange. -/
def Spec.SameExc (e e' : Exchange) : Prop :=
  e' = { e with toNumObj := e'.toNumObj, pv := e'.pv, properties := e'.properties } ∧
  List.Forall₂ (fun p p' : PV => p' = { p with toNumObj := p'.toNumObj }) e.pv.toList e'.pv.toList ∧
  List.Forall₂ (fun p p' : Prop' => p' = { p with toNumObj := p'.toNumObj }) e.properties e'.properties

theorem Exchange.mapNumE_frame {f : NumObj → Except Err NumObj} {e e' : Exchange}
    (h : e.mapNumE f = .ok e') : Spec.SameExc e e' ∧ f e.toNumObj = .ok e'.toNumObj := by
  unfold Exchange.mapNumE at h
  obtain ⟨o, ho, h⟩ := bind_eq_ok.mp h
  obtain ⟨pv, hpv, h⟩ := bind_eq_ok.mp h
  obtain ⟨ps, hps, h⟩ := bind_eq_ok.mp h
  cases h
  refine ⟨⟨rfl, ?_, ?_⟩, ho⟩
  · simp only
    rcases hp : e.pv with _ | p
    · rw [hp] at hpv; cases hpv; exact .nil
    · rw [hp] at hpv
      obtain ⟨q, hq, hpv⟩ := bind_eq_ok.mp hpv
      cases hpv
      exact .cons rfl .nil
  · refine (mapE_ok_iff.mp hps).imp fun p p' hp => ?_
    obtain ⟨q, hq, hp⟩ := bind_eq_ok.mp hp
    cases hp
    rfl

theorem mapE_flatMap {α : Type} {g : α → List NumObj} {F : α → Except Err α} {f : NumObj → Except Err NumObj}
    (hF : ∀ a b, F a = .ok b → mapE f (g a) = .ok (g b)) {l r : List α} (h : mapE F l = .ok r) :
    mapE f (l.flatMap g) = .ok (r.flatMap g) := by
  induction l generalizing r with
  | nil => cases h; rfl
  | cons a l ih =>
    obtain ⟨b, r', hb, hr', rfl⟩ := mapE_cons_ok.mp h
    simp only [List.flatMap_cons]
    exact mapE_append.mpr ⟨_, _, hF a b hb, ih hr', rfl⟩

theorem Dataset.mapNumE_inv {f : NumObj → Except Err NumObj} {ds ds' : Dataset}
    (h : ds.mapNumE f = .ok ds') :
    mapE f ds.numObjs = .ok ds'.numObjs ∧
    ds' = { ds with exchanges := ds'.exchanges, parameters := ds'.parameters } ∧
    List.Forall₂ (fun e e' => e.mapNumE f = .ok e') ds.exchanges ds'.exchanges ∧
    List.Forall₂ (fun p p' : Param => p' = { p with toNumObj := p'.toNumObj }) ds.parameters ds'.parameters := by
  unfold Dataset.mapNumE at h
  obtain ⟨ex, hex, h⟩ := bind_eq_ok.mp h
  obtain ⟨ps, hps, h⟩ := bind_eq_ok.mp h
  cases h
  refine ⟨?_, rfl, mapE_ok_iff.mp hex, ?_⟩
  · unfold Dataset.numObjs
    exact mapE_append.mpr ⟨_, _, mapE_flatMap (fun a b => Exchange.mapNumE_numObjs) hex,
      mapE_wrap (get := Param.toNumObj) (set := fun p q => { p with toNumObj := q }) (fun _ _ => rfl) hps, rfl⟩
  · refine (mapE_ok_iff.mp hps).imp fun p p' hp => ?_
    obtain ⟨q, hq, hp⟩ := bind_eq_ok.mp hp
    cases hp
    rfl

/-- A body that changes nothing on the objects present changes nothing at all. -/
theorem Dataset.mapNumE_id {f : NumObj → Except Err NumObj} {ds : Dataset}
    (h : ∀ o ∈ ds.numObjs, f o = .ok o) : ds.mapNumE f = .ok ds := by
  have hpar : mapE (fun p : Param => do let q ← f p.toNumObj; return { p with toNumObj := q }) ds.parameters = .ok ds.parameters := by
    rw [mapE_congr (g := fun p => .ok p), mapE_pure (fun p => p)]
    · simp
    · intro p hp
      rw [h p.toNumObj (by unfold Dataset.numObjs; exact List.mem_append_right _ (List.mem_map.mpr ⟨p, hp, rfl⟩))]
      rfl
  have hexc : mapE (Exchange.mapNumE f) ds.exchanges = .ok ds.exchanges := by
    rw [mapE_congr (g := fun e => .ok e), mapE_pure (fun e => e)]
    · simp
    · intro e he
      have hmem : ∀ o ∈ e.numObjs, f o = .ok o := fun o ho =>
        h o (by unfold Dataset.numObjs; exact List.mem_append_left _ (List.mem_flatMap.mpr ⟨e, he, ho⟩))
      have hps : mapE (fun p : Prop' => do let q ← f p.toNumObj; return { p with toNumObj := q }) e.properties = .ok e.properties := by
        rw [mapE_congr (g := fun p => .ok p), mapE_pure (fun p => p)]
        · simp
        · intro p hp
          rw [hmem p.toNumObj (by simp only [Exchange.numObjs, List.mem_cons, List.mem_append]; exact Or.inr (Or.inr (List.mem_map.mpr ⟨p, hp, rfl⟩)))]
          rfl
      unfold Exchange.mapNumE
      rw [hmem e.toNumObj (by simp [Exchange.numObjs])]
      rcases hp : e.pv with _ | p
      · simp only [ebind_ok, mapPvE]
        rw [hps]
        simp only [ebind_ok, epure, ← hp]
      · have : f p.toNumObj = .ok p.toNumObj := hmem _ (by simp [Exchange.numObjs, hp])
        simp only [ebind_ok, mapPvE, this]
        rw [hps]
        simp only [ebind_ok, epure, ← hp]
  unfold Dataset.mapNumE
  rw [hexc, hpar]
  rfl

theorem Dataset.mapNumE_pure_ok (g : NumObj → NumObj) (ds : Dataset) :
    ∃ ds', ds.mapNumE (fun o => .ok (g o)) = .ok ds' := by
  unfold Dataset.mapNumE
  obtain ⟨ex, hex⟩ := mapE_ok_of_forall (f := Exchange.mapNumE fun o => .ok (g o)) (l := ds.exchanges) (by
    intro e _
    unfold Exchange.mapNumE
    obtain ⟨ps, hps⟩ := mapE_ok_of_forall (f := fun p : Prop' => (do let q ← (.ok (g p.toNumObj) : Except Err NumObj); return { p with toNumObj := q })) (l := e.properties)
      (fun p _ => ⟨_, rfl⟩)
    rcases e.pv with _ | p
    · exact ⟨_, by simp only [ebind_ok, epure, mapPvE] at hps ⊢; rw [hps]; rfl⟩
    · exact ⟨_, by simp only [ebind_ok, epure, mapPvE] at hps ⊢; rw [hps]; rfl⟩)
  obtain ⟨ps, hps⟩ := mapE_ok_of_forall (f := fun p : Param => (do let q ← (.ok (g p.toNumObj) : Except Err NumObj); return { p with toNumObj := q })) (l := ds.parameters)
      (fun p _ => ⟨_, rfl⟩)
  exact ⟨_, by rw [hex]; simp only [ebind_ok] at hps ⊢; rw [hps]; rfl⟩

/-! ## Locality of evaluation -/

theorem Expr.eval_congr (F : FormulaEnv) {σ τ : String → Option ℚ} (e : Expr)
    (h : ∀ n ∈ e.names, σ n = τ n) : e.eval F σ = e.eval F τ := by
  induction e with
  | num q => rfl
  | var n => simp [Expr.eval, h n (by simp [Expr.names])]
  | neg a iha => simp only [Expr.eval]; rw [iha h]
  | call1 f a iha => simp only [Expr.eval]; rw [iha h]
  | add a b iha ihb => simp only [Expr.eval, Expr.names, List.mem_append] at h ⊢; rw [iha fun n hn => h n (.inl hn), ihb fun n hn => h n (.inr hn)]
  | sub a b iha ihb => simp only [Expr.eval, Expr.names, List.mem_append] at h ⊢; rw [iha fun n hn => h n (.inl hn), ihb fun n hn => h n (.inr hn)]
  | mul a b iha ihb => simp only [Expr.eval, Expr.names, List.mem_append] at h ⊢; rw [iha fun n hn => h n (.inl hn), ihb fun n hn => h n (.inr hn)]
  | div a b iha ihb => simp only [Expr.eval, Expr.names, List.mem_append] at h ⊢; rw [iha fun n hn => h n (.inl hn), ihb fun n hn => h n (.inr hn)]
  | lt a b iha ihb => simp only [Expr.eval, Expr.names, List.mem_append] at h ⊢; rw [iha fun n hn => h n (.inl hn), ihb fun n hn => h n (.inr hn)]
  | call2 f a b iha ihb => simp only [Expr.eval, Expr.names, List.mem_append] at h ⊢; rw [iha fun n hn => h n (.inl hn), ihb fun n hn => h n (.inr hn)]
  | cond c a b ihc iha ihb =>
    simp only [Expr.eval, Expr.names, List.mem_append] at h ⊢
    rw [ihc fun n hn => h n (.inl (.inl hn)), iha fun n hn => h n (.inl (.inr hn)), ihb fun n hn => h n (.inr hn)]

/-- The names a named parameter depends on. -/
def depNames (F : FormulaEnv) (p : NamedParam) : List String :=
  match p.2 with
  | none => []
  | some f => if f = "" then [] else ((F.parse f).map Expr.names).getD []

theorem paramValue_congr (F : FormulaEnv) {σ τ : String → Option ℚ} (p : NamedParam)
    (h : ∀ n ∈ depNames F p, σ n = τ n) : paramValue F σ p = paramValue F τ p := by
  unfold paramValue
  unfold depNames at h
  rcases p with ⟨a, _ | f⟩
  · rfl
  · simp only at h ⊢
    split
    · rfl
    · next hf =>
      rw [if_neg hf] at h
      unfold tolerantEval
      rcases hp : F.parse f with _ | e
      · rfl
      · simp only [hp, Option.map_some, Option.getD_some] at h ⊢
        rw [Expr.eval_congr F e h]

/-- `order` enumerates the parameters, each after those it depends on. -/
structure OrderOK (F : FormulaEnv) (params : List (String × NamedParam)) (order : List String) : Prop where
  nodup : order.Nodup
  keys : ∀ k, k ∈ order ↔ k ∈ params.map (·.1)
  deps : ∀ pre k post, order = pre ++ k :: post → ∀ p, params.lookup k = some p →
    ∀ n ∈ depNames F p, n ∉ k :: post

/-- A symbol table solves the parameter equations. -/
def Solution (F : FormulaEnv) (params : List (String × NamedParam)) (σ : String → Option ℚ) : Prop :=
  (∀ k p, params.lookup k = some p → ∃ v, σ k = some v ∧ paramValue F σ p = .ok v) ∧
  ∀ n, n ∉ params.map (·.1) → σ n = F.base n

theorem lookup_isSome_iff {β : Type} (l : List (String × β)) (k : String) :
    k ∈ l.map (·.1) ↔ ∃ v, l.lookup k = some v := by
  induction l with
  | nil => simp
  | cons p r ih =>
    obtain ⟨k', v'⟩ := p
    by_cases h : k = k'
    · subst h; simp
    · have h2 : (k == k') = false := by simp [h]
      have : List.lookup k ((k', v') :: r) = List.lookup k r := by
        simp [List.lookup, h2]
      rw [this, ← ih]
      simp [h]

theorem evaluateParams_outside {F : FormulaEnv} {params : List (String × NamedParam)}
    {order : List String} {σ₀ σ : String → Option ℚ} (h : evaluateParams F params order σ₀ = .ok σ) :
    ∀ n, n ∉ order → σ n = σ₀ n := by
  induction order generalizing σ₀ with
  | nil => cases h; intro n _; rfl
  | cons k rest ih =>
    unfold evaluateParams at h
    split at h
    · cases h
    · obtain ⟨v, hv, h⟩ := bind_eq_ok.mp h
      intro n hn
      rw [ih h n (fun h' => hn (by simp [h'])), symSet, if_neg (fun h' => hn (by simp [h']))]

theorem evaluateParams_solves {F : FormulaEnv} {params : List (String × NamedParam)} {order : List String}
    {σ : String → Option ℚ} (ho : OrderOK F params order)
    (h : evaluateParams F params order F.base = .ok σ) : Solution F params σ := by
  refine ⟨?_, ?_⟩
  · have key : ∀ rest pre σ₀, order = pre ++ rest → evaluateParams F params rest σ₀ = .ok σ →
        ∀ k ∈ rest, ∀ p, params.lookup k = some p → ∃ v, σ k = some v ∧ paramValue F σ p = .ok v := by
      intro rest
      induction rest with
      | nil => intro _ _ _ _ k hk; cases hk
      | cons k rest ih =>
        intro pre σ₀ hpre he k' hk' p' hp'
        unfold evaluateParams at he
        split at he
        · cases he
        · next p hp =>
          obtain ⟨v, hv, he2⟩ := bind_eq_ok.mp he
          clear he
          rcases List.mem_cons.mp hk' with rfl | hk'
          · rw [hp] at hp'
            obtain rfl := Option.some.inj hp'
            have hnd := ho.nodup
            rw [hpre] at hnd
            have hkr : k' ∉ rest := (List.nodup_cons.mp (List.nodup_append.mp hnd).2.1).1
            have hout := evaluateParams_outside he2
            refine ⟨v, ?_, ?_⟩
            · rw [hout k' hkr]; simp [symSet]
            · rw [← hv]
              apply paramValue_congr
              intro n hn
              have := ho.deps pre k' rest hpre p hp n hn
              rw [List.mem_cons, not_or] at this
              rw [hout n this.2, symSet, if_neg this.1]
          · exact ih (pre ++ [k]) _ (by simp [hpre]) he2 k' hk' p' hp'
    intro k p hp
    exact key order [] F.base rfl h k ((ho.keys k).mpr ((lookup_isSome_iff params k).mpr ⟨p, hp⟩)) p hp
  · intro n hn
    exact evaluateParams_outside h n fun h' => hn ((ho.keys n).mp h')

theorem evaluateParams_of_solution {F : FormulaEnv} {params : List (String × NamedParam)}
    {order : List String} {σ : String → Option ℚ} (ho : OrderOK F params order)
    (hs : Solution F params σ) : evaluateParams F params order F.base = .ok σ := by
  have key : ∀ rest pre σ₀, order = pre ++ rest → (∀ n, n ∉ rest → σ₀ n = σ n) →
      evaluateParams F params rest σ₀ = .ok σ := by
    intro rest
    induction rest with
    | nil =>
      intro _ σ₀ _ h
      have : σ₀ = σ := funext fun n => h n (by simp)
      rw [this]; rfl
    | cons k rest ih =>
      intro pre σ₀ hpre h
      have hk : k ∈ params.map (·.1) := (ho.keys k).mp (by rw [hpre]; simp)
      obtain ⟨p, hp⟩ := (lookup_isSome_iff params k).mp hk
      obtain ⟨v, hv, hpv⟩ := hs.1 k p hp
      have : paramValue F σ₀ p = .ok v := by
        rw [← hpv]
        apply paramValue_congr
        intro n hn
        exact h n (ho.deps pre k rest hpre p hp n hn)
      unfold evaluateParams
      rw [hp]
      simp only [this, ebind_ok]
      refine ih (pre ++ [k]) _ (by simp [hpre]) ?_
      intro n hn
      unfold symSet
      split
      · next hnk => rw [hnk, hv]
      · next hnk => exact h n (by simp [hn, hnk])
  refine key order [] F.base rfl ?_
  intro n hn
  exact (hs.2 n fun h => hn ((ho.keys n).mpr h)).symm

theorem evaluateParams_error {F : FormulaEnv} {params : List (String × NamedParam)} {order : List String}
    {σ₀ : String → Option ℚ} {err : Err} (hk : ∀ k ∈ order, k ∈ params.map (·.1))
    (h : evaluateParams F params order σ₀ = .error err) : err = .parameterError := by
  induction order generalizing σ₀ with
  | nil => cases h
  | cons k rest ih =>
    unfold evaluateParams at h
    obtain ⟨p, hp⟩ := (lookup_isSome_iff params k).mp (hk k (by simp))
    rw [hp] at h
    simp only at h
    rcases bind_eq_error.mp h with h | ⟨v, _, h⟩
    · unfold paramValue at h
      rcases p with ⟨a, _ | f⟩
      · cases h
      · simp only at h
        split at h
        · cases h
        · unfold tolerantEval at h
          split at h
          · cases h; rfl
          · split at h <;> cases h
            rfl
    · exact ih (fun k' hk' => hk k' (by simp [hk'])) h

/-- The result of evaluating the named parameters is the same for all admissible orders. -/
theorem evaluateParams_order {F : FormulaEnv} {params : List (String × NamedParam)} {o₁ o₂ : List String}
    (h₁ : OrderOK F params o₁) (h₂ : OrderOK F params o₂) :
    evaluateParams F params o₁ F.base = evaluateParams F params o₂ F.base := by
  rcases he : evaluateParams F params o₁ F.base with e | σ
  · rcases he2 : evaluateParams F params o₂ F.base with e' | σ
    · rw [evaluateParams_error (fun k hk => (h₁.keys k).mp hk) he,
        evaluateParams_error (fun k hk => (h₂.keys k).mp hk) he2]
    · rw [evaluateParams_of_solution h₁ (evaluateParams_solves h₂ he2)] at he
      cases he
  · rw [evaluateParams_of_solution h₂ (evaluateParams_solves h₁ he)]

/-- Looking up a dictionary built from objects with pairwise different names. -/
theorem dictOf_lookup {α β : Type} (key : α → String) (val : α → β) (l : List α) (k : String) (v : β)
    (h : (k, v) ∈ dictOf key val l) : (dictOf key val l).lookup k = some v := by
  have hn := dictOf_nodup key val l
  revert h hn
  generalize dictOf key val l = d
  intro h hn
  induction d with
  | nil => cases h
  | cons p r ih =>
    obtain ⟨k', v'⟩ := p
    simp only [List.map_cons, List.nodup_cons] at hn
    rcases List.mem_cons.mp h with h | h
    · cases h; simp [List.lookup]
    · have hne : k ≠ k' := by
        intro hk
        apply hn.1
        rw [← hk]
        exact List.mem_map.mpr ⟨_, h, rfl⟩
      have : (k == k') = false := by simp [hne]
      simp only [List.lookup, this]
      exact ih h hn.2

theorem lookup_mem {β : Type} {l : List (String × β)} {k : String} {v : β} (h : l.lookup k = some v) :
    (k, v) ∈ l := by
  induction l with
  | nil => cases h
  | cons p r ih =>
    obtain ⟨k', v'⟩ := p
    by_cases hk : k = k'
    · subst hk; simp [List.lookup] at h; simp [h]
    · have : (k == k') = false := by simp [hk]
      simp only [List.lookup, this] at h
      simp [ih h]

end Ocelot
