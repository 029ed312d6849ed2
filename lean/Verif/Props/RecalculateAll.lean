import Verif.Model.RecalculateAll
import Verif.Props.Params

/-! # Property C126: recalculating all datasets -/

namespace Ocelot

namespace Spec

/-- The errors that the documentation means by logged errors: those of formulas and their references. -/
def FormulaError (e : Err) : Prop := e = .parameterError ∨ e = .zeroDivisionError ∨ e = .typeError

/-- A loop over `l` that ended at the object where `f` raises `e`: the objects before have their new values, this one and all later ones their old values. -/
def StoppedAt (f : NumObj → Except Err NumObj) (e : Err) (l l' : List NumObj) : Prop :=
  ∃ pre o post pre', l = pre ++ o :: post ∧ mapE f pre = .ok pre' ∧ f o = .error e ∧ l' = pre' ++ o :: post

/-- Only numeric objects may differ. -/
def SameButNumbers (ds ds' : Dataset) : Prop :=
  ds' = { ds with exchanges := ds'.exchanges, parameters := ds'.parameters } ∧ List.Forall₂ SameExc ds.exchanges ds'.exchanges ∧
    List.Forall₂ (fun p p' : Param => p' = { p with toNumObj := p'.toNumObj }) ds.parameters ds'.parameters

end Spec

open Spec

theorem caught_iff (e : Err) : caught e = true ↔ FormulaError e := by
  unfold caught FormulaError
  cases e <;> simp

/-- The loop in place and the functional loop agree: same exception or same result. -/
def Agrees {α : Type} (g : α → α × Except Err Unit) (G : α → Except Err α) : Prop :=
  ∀ a, (∃ b, G a = .ok b ∧ g a = (b, .ok ())) ∨ ∃ b e, G a = .error e ∧ g a = (b, .error e)

theorem agrees_mapS {α : Type} {g : α → α × Except Err Unit} {G : α → Except Err α} (h : Agrees g G) : Agrees (mapS g) (mapE G) := by
  intro l
  induction l with
  | nil => exact .inl ⟨[], rfl, rfl⟩
  | cons a l ih =>
    rw [mapE, mapS]
    rcases h a with ⟨b, h1, h2⟩ | ⟨b, e, h1, h2⟩
    · rw [h1, h2]
      rcases ih with ⟨r, h3, h4⟩ | ⟨r, e, h3, h4⟩
      · exact .inl ⟨b :: r, by rw [h3]; rfl, by rw [h4]⟩
      · exact .inr ⟨b :: r, e, by rw [h3]; rfl, by rw [h4]⟩
    · rw [h1, h2]
      exact .inr ⟨b :: l, e, rfl, rfl⟩

theorem agrees_objS (f : NumObj → Except Err NumObj) : Agrees (objS f) f := by
  intro o
  unfold objS
  cases h : f o with
  | ok b => exact .inl ⟨b, rfl, rfl⟩
  | error e => exact .inr ⟨o, e, rfl, rfl⟩

theorem agrees_wrap {α : Type} (get : α → NumObj) (set : α → NumObj → α) (f : NumObj → Except Err NumObj) :
    Agrees (fun a => (set a (objS f (get a)).1, (objS f (get a)).2)) (fun a => do let q ← f (get a); return set a q) := by
  intro a
  rcases agrees_objS f (get a) with ⟨b, h1, h2⟩ | ⟨b, e, h1, h2⟩
  · exact .inl ⟨set a b, by simp only [h1]; rfl, by simp only [h2]⟩
  · exact .inr ⟨set a b, e, by simp only [h1]; rfl, by simp only [h2]⟩

theorem agrees_pvS (f : NumObj → Except Err NumObj) : Agrees (pvS f) (mapPvE f) := by
  intro o
  cases o with
  | none => exact .inl ⟨none, rfl, rfl⟩
  | some p =>
    rcases agrees_objS f p.toNumObj with ⟨b, h1, h2⟩ | ⟨b, e, h1, h2⟩
    · exact .inl ⟨some { p with toNumObj := b }, by simp only [mapPvE]; rw [h1]; rfl, by simp only [pvS]; rw [h2]⟩
    · exact .inr ⟨some { p with toNumObj := b }, e, by simp only [mapPvE]; rw [h1]; rfl, by simp only [pvS]; rw [h2]⟩

theorem agrees_exchange (f : NumObj → Except Err NumObj) : Agrees (Exchange.numS f) (Exchange.mapNumE f) := by
  intro e
  unfold Exchange.numS Exchange.mapNumE
  rcases agrees_objS f e.toNumObj with ⟨o, h1, h2⟩ | ⟨o, x, h1, h2⟩
  · rw [h1, h2]
    rcases agrees_pvS f e.pv with ⟨pv, h3, h4⟩ | ⟨pv, x, h3, h4⟩
    · simp only [ebind_ok]
      rw [h3, h4]
      rcases agrees_mapS (agrees_wrap Prop'.toNumObj (fun p q => { p with toNumObj := q }) f) e.properties with ⟨ps, h5, h6⟩ | ⟨ps, x, h5, h6⟩
      · exact .inl ⟨_, by simp only [ebind_ok]; rw [h5]; rfl, by simp only; rw [h6]⟩
      · exact .inr ⟨_, x, by simp only [ebind_ok]; rw [h5]; rfl, by simp only; rw [h6]⟩
    · exact .inr ⟨_, x, by simp only [ebind_ok]; rw [h3]; rfl, by rw [h4]⟩
  · rw [h1, h2]
    exact .inr ⟨_, x, rfl, rfl⟩

theorem agrees_dataset (f : NumObj → Except Err NumObj) : Agrees (Dataset.numS f) (Dataset.mapNumE f) := by
  intro ds
  unfold Dataset.numS Dataset.mapNumE
  rcases agrees_mapS (agrees_exchange f) ds.exchanges with ⟨ex, h1, h2⟩ | ⟨ex, x, h1, h2⟩
  · rw [h1, h2]
    rcases agrees_mapS (agrees_wrap Param.toNumObj (fun p q => { p with toNumObj := q }) f) ds.parameters with ⟨ps, h5, h6⟩ | ⟨ps, x, h5, h6⟩
    · exact .inl ⟨_, by simp only [ebind_ok]; rw [h5]; rfl, by simp only; rw [h6]⟩
    · exact .inr ⟨_, x, by simp only [ebind_ok]; rw [h5]; rfl, by simp only; rw [h6]⟩
  · rw [h1, h2]
    exact .inr ⟨_, x, rfl, rfl⟩

theorem agrees_recalculate (M : MathEnv) (F : FormulaEnv) (ord : Dataset → Except Err (List String)) : Agrees (recalculateS M F ord) (recalculateO M F ord) := by
  intro ds
  unfold recalculateS recalculateO recalculate
  cases ord ds with
  | error e => exact .inr ⟨ds, e, rfl, rfl⟩
  | ok order =>
    simp only [ebind_ok]
    cases evaluateParams F (extractNamedParameters ds) order F.base with
    | error e => exact .inr ⟨ds, e, rfl, rfl⟩
    | ok σ =>
      simp only [ebind_ok]
      rcases agrees_dataset (recalcObj F σ) ds with ⟨mid, h1, h2⟩ | ⟨mid, x, h1, h2⟩
      · rw [h1, h2]
        exact agrees_dataset (repair M) mid
      · rw [h1, h2]
        exact .inr ⟨mid, x, rfl, rfl⟩

/-! ## What a failure leaves behind -/

/-- After a failure, the observed objects are stopped. -/
def Stops {α : Type} (g : α → α × Except Err Unit) (obs : α → List NumObj) (f : NumObj → Except Err NumObj) : Prop :=
  ∀ a, (∀ e, (g a).2 = .error e → StoppedAt f e (obs a) (obs (g a).1)) ∧ ((g a).2 = .ok () → mapE f (obs a) = .ok (obs (g a).1))

theorem stoppedAt_append_right {f : NumObj → Except Err NumObj} {e : Err} {l l' : List NumObj} (h : StoppedAt f e l l') (r : List NumObj) : StoppedAt f e (l ++ r) (l' ++ r) := by
  obtain ⟨pre, o, post, pre', rfl, h2, h3, rfl⟩ := h
  exact ⟨pre, o, post ++ r, pre', by simp, h2, h3, by simp⟩

theorem stoppedAt_append_left {f : NumObj → Except Err NumObj} {e : Err} {l l' k k' : List NumObj} (hk : mapE f k = .ok k') (h : StoppedAt f e l l') : StoppedAt f e (k ++ l) (k' ++ l') := by
  obtain ⟨pre, o, post, pre', rfl, h2, h3, rfl⟩ := h
  exact ⟨k ++ pre, o, post, k' ++ pre', by simp, mapE_append.mpr ⟨_, _, hk, h2, rfl⟩, h3, by simp⟩

theorem stops_mapS {α : Type} {g : α → α × Except Err Unit} {obs : α → List NumObj} {f : NumObj → Except Err NumObj} (h : Stops g obs f) : Stops (mapS g) (fun l => l.flatMap obs) f := by
  intro l
  induction l with
  | nil => exact ⟨fun e he => (by cases he), fun _ => rfl⟩
  | cons a l ih =>
    have ha := h a
    rw [mapS]
    rcases hg : g a with ⟨a', r⟩
    rw [hg] at ha
    cases r with
    | error x =>
      refine ⟨fun e he => ?_, fun hk => (by cases hk)⟩
      simp only [List.flatMap_cons]
      exact stoppedAt_append_right (ha.1 e he) _
    | ok u =>
      simp only [List.flatMap_cons]
      have hk := ha.2 rfl
      exact ⟨fun e he => stoppedAt_append_left hk (ih.1 e he), fun hok => mapE_append.mpr ⟨_, _, hk, ih.2 hok, rfl⟩⟩

theorem stops_objS (f : NumObj → Except Err NumObj) : Stops (objS f) (fun o => [o]) f := by
  intro o
  unfold objS
  cases h : f o with
  | ok b => exact ⟨fun e he => (by cases he), fun _ => mapE_cons_ok.mpr ⟨b, [], h, rfl, rfl⟩⟩
  | error x =>
    refine ⟨fun e he => ?_, fun hk => (by cases hk)⟩
    cases he
    exact ⟨[], o, [], [], rfl, rfl, h, rfl⟩

theorem stops_wrap {α : Type} (get : α → NumObj) (set : α → NumObj → α) (hget : ∀ a q, get (set a q) = q) (f : NumObj → Except Err NumObj) :
    Stops (fun a => (set a (objS f (get a)).1, (objS f (get a)).2)) (fun a => [get a]) f := by
  intro a
  have := stops_objS f (get a)
  simp only [hget]
  exact this

theorem stops_pvS (f : NumObj → Except Err NumObj) : Stops (pvS f) (fun o => o.toList.map PV.toNumObj) f := by
  intro o
  cases o with
  | none => exact ⟨fun e he => (by cases he), fun _ => rfl⟩
  | some p =>
    have := stops_objS f p.toNumObj
    unfold pvS
    exact this

theorem flatMap_single {α β : Type} (g : α → β) (l : List α) : (l.flatMap fun a => [g a]) = l.map g := by
  induction l with
  | nil => rfl
  | cons a l ih => rw [List.flatMap_cons, ih, List.map_cons, List.singleton_append]

theorem stops_exchange (f : NumObj → Except Err NumObj) : Stops (Exchange.numS f) Exchange.numObjs f := by
  intro e
  have h1 := stops_objS f e.toNumObj
  have h2 := stops_pvS f e.pv
  have h3 := stops_mapS (stops_wrap Prop'.toNumObj (fun p q => { p with toNumObj := q }) (fun _ _ => rfl) f) e.properties
  simp only [flatMap_single] at h3
  unfold Exchange.numS
  have hcons : ∀ x : Exchange, x.numObjs = [x.toNumObj] ++ (x.pv.toList.map PV.toNumObj ++ x.properties.map Prop'.toNumObj) := fun _ => rfl
  rcases hg : objS f e.toNumObj with ⟨o, r⟩
  rw [hg] at h1
  cases r with
  | error x =>
    refine ⟨fun y hy => ?_, fun hk => (by cases hk)⟩
    rw [hcons, hcons]
    exact stoppedAt_append_right (h1.1 y hy) _
  | ok u =>
    simp only
    have hk1 := h1.2 rfl
    rcases hp : pvS f e.pv with ⟨pv, r⟩
    rw [hp] at h2
    cases r with
    | error x =>
      refine ⟨fun y hy => ?_, fun hk => (by cases hk)⟩
      rw [hcons, hcons]
      exact stoppedAt_append_left hk1 (stoppedAt_append_right (h2.1 y hy) _)
    | ok u =>
      simp only
      have hk2 := h2.2 rfl
      refine ⟨fun y hy => ?_, fun hk => ?_⟩
      · rw [hcons, hcons]
        exact stoppedAt_append_left hk1 (stoppedAt_append_left hk2 (h3.1 y hy))
      · rw [hcons, hcons]
        exact mapE_append.mpr ⟨_, _, hk1, mapE_append.mpr ⟨_, _, hk2, h3.2 hk, rfl⟩, rfl⟩

theorem stops_dataset (f : NumObj → Except Err NumObj) : Stops (Dataset.numS f) Dataset.numObjs f := by
  intro ds
  have h1 := stops_mapS (stops_exchange f) ds.exchanges
  have h2 := stops_mapS (stops_wrap Param.toNumObj (fun p q => { p with toNumObj := q }) (fun _ _ => rfl) f) ds.parameters
  simp only [flatMap_single] at h2
  unfold Dataset.numS
  rcases hg : mapS (Exchange.numS f) ds.exchanges with ⟨ex, r⟩
  rw [hg] at h1
  cases r with
  | error x =>
    refine ⟨fun y hy => ?_, fun hk => (by cases hk)⟩
    unfold Dataset.numObjs
    exact stoppedAt_append_right (h1.1 y hy) _
  | ok u =>
    simp only
    have hk1 := h1.2 rfl
    refine ⟨fun y hy => ?_, fun hk => ?_⟩
    · unfold Dataset.numObjs
      exact stoppedAt_append_left hk1 (h2.1 y hy)
    · unfold Dataset.numObjs
      exact mapE_append.mpr ⟨_, _, hk1, h2.2 hk, rfl⟩

/-! ## The frame -/

theorem forall₂_mapS {α : Type} {g : α → α × Except Err Unit} {R : α → α → Prop} (hrefl : ∀ a, R a a) (h : ∀ a, R a (g a).1) (l : List α) : List.Forall₂ R l (mapS g l).1 := by
  induction l with
  | nil => exact .nil
  | cons a l ih =>
    rw [mapS]
    have := h a
    rcases hg : g a with ⟨a', r⟩
    rw [hg] at this
    cases r with
    | error x => exact .cons this (List.forall₂_same.mpr fun b _ => hrefl b)
    | ok u => exact .cons this ih

theorem sameExc_refl (e : Exchange) : SameExc e e := ⟨rfl, List.forall₂_same.mpr fun _ _ => rfl, List.forall₂_same.mpr fun _ _ => rfl⟩

theorem sameExc_numS (f : NumObj → Except Err NumObj) (e : Exchange) : SameExc e (e.numS f).1 := by
  unfold Exchange.numS
  split
  · exact ⟨rfl, List.forall₂_same.mpr fun _ _ => rfl, List.forall₂_same.mpr fun _ _ => rfl⟩
  · have hpv : List.Forall₂ (fun p p' : PV => p' = { p with toNumObj := p'.toNumObj }) e.pv.toList (pvS f e.pv).1.toList := by
      rcases e.pv with _ | p
      · exact .nil
      · exact .cons rfl .nil
    split
    · next h =>
      rw [h] at hpv
      exact ⟨rfl, hpv, List.forall₂_same.mpr fun _ _ => rfl⟩
    · next h =>
      rw [h] at hpv
      exact ⟨rfl, hpv, forall₂_mapS (R := fun p p' : Prop' => p' = { p with toNumObj := p'.toNumObj }) (fun _ => rfl) (fun _ => rfl) _⟩

theorem same_numS (f : NumObj → Except Err NumObj) (ds : Dataset) : SameButNumbers ds (ds.numS f).1 := by
  have hex := forall₂_mapS sameExc_refl (sameExc_numS f) ds.exchanges
  unfold Dataset.numS
  split
  · next h =>
    rw [h] at hex
    exact ⟨rfl, hex, List.forall₂_same.mpr fun _ _ => rfl⟩
  · next h =>
    rw [h] at hex
    exact ⟨rfl, hex, forall₂_mapS (R := fun p p' : Param => p' = { p with toNumObj := p'.toNumObj }) (fun _ => rfl) (fun _ => rfl) _⟩

theorem same_refl (ds : Dataset) : SameButNumbers ds ds := ⟨rfl, List.forall₂_same.mpr fun _ _ => sameExc_refl _, List.forall₂_same.mpr fun _ _ => rfl⟩

theorem same_trans {a b c : Dataset} (h : SameButNumbers a b) (h' : SameButNumbers b c) : SameButNumbers a c := by
  obtain ⟨h1, h2, h3⟩ := h
  obtain ⟨h1', h2', h3'⟩ := h'
  refine ⟨by rw [h1', h1], forall₂_trans' h2 h2' fun x y z hxy hyz => Spec.SameExc.trans hxy hyz, forall₂_trans' h3 h3' ?_⟩
  intro x y z hxy hyz; rw [hyz, hxy]

theorem same_recalculateS (M : MathEnv) (F : FormulaEnv) (ord : Dataset → Except Err (List String)) (ds : Dataset) : SameButNumbers ds (recalculateS M F ord ds).1 := by
  unfold recalculateS
  split
  · exact same_refl ds
  · split
    · exact same_refl ds
    · next σ _ =>
      have h1 := same_numS (recalcObj F σ) ds
      split
      · next h => rw [h] at h1; exact h1
      · next h => rw [h] at h1; exact same_trans h1 (same_numS (repair M) _)

/-! ## The property -/

/-- **C126**, the table: if the function returns, every dataset is either recalculated as by `recalculate`, or has an error in its formulas and a line in the table, in the order of the datasets; names,
places, types, variables and formulas are never changed. -/
theorem C126_table {M : MathEnv} {F : FormulaEnv} {ord : Dataset → Except Err (List String)} {data out : List Dataset} {table : List FailureRow}
    (h : recalculateAll M F ord data = (out, table, .ok ())) :
    List.Forall₂ (fun ds ds' => recalculateO M F ord ds = .ok ds' ∨ ((∃ e, recalculateO M F ord ds = .error e ∧ FormulaError e) ∧ SameButNumbers ds ds')) data out ∧
      table = ((data.filter fun ds => (recalculateO M F ord ds).toBool == false).map fun ds => (ds.name, ds.refProduct.getD "", ds.location)) ∧
      ∀ ds ∈ data, (∀ ds', recalculateO M F ord ds ≠ .ok ds') → ds.refProduct.isSome := by
  induction data generalizing out table with
  | nil =>
    cases h
    exact ⟨.nil, rfl, fun _ hd => (by cases hd)⟩
  | cons ds rest ih =>
    rw [recalculateAll] at h
    have hsame := same_recalculateS M F ord ds
    rcases agrees_recalculate M F ord ds with ⟨b, h1, h2⟩ | ⟨b, e, h1, h2⟩
    · rw [h2] at h
      simp only [Prod.mk.injEq] at h
      obtain ⟨rfl, rfl, hr⟩ := h
      obtain ⟨a1, a2, a3⟩ := ih (out := (recalculateAll M F ord rest).1) (table := (recalculateAll M F ord rest).2.1) (by rw [← hr])
      refine ⟨.cons (.inl h1) a1, ?_, ?_⟩
      · rw [List.filter_cons, if_neg (by rw [h1]; simp [Except.toBool]), ← a2]
      · intro d hd hx
        rcases List.mem_cons.mp hd with rfl | hd
        · exact absurd h1 (hx b)
        · exact a3 d hd hx
    · rw [h2] at h hsame
      simp only at h hsame
      split at h
      swap
      · simp at h
      next hc =>
      split at h
      · simp at h
      next rp hrp =>
      simp only [Prod.mk.injEq] at h
      obtain ⟨rfl, rfl, hr⟩ := h
      obtain ⟨a1, a2, a3⟩ := ih (out := (recalculateAll M F ord rest).1) (table := (recalculateAll M F ord rest).2.1) (by rw [← hr])
      have hb : b.name = ds.name ∧ b.refProduct = ds.refProduct ∧ b.location = ds.location := by
        rw [hsame.1]
        exact ⟨rfl, rfl, rfl⟩
      refine ⟨.cons (.inr ⟨⟨e, h1, (caught_iff e).mp hc⟩, hsame⟩) a1, ?_, ?_⟩
      · rw [List.filter_cons, if_pos (by rw [h1]; simp [Except.toBool]), List.map_cons, ← a2, hb.1, hb.2.2, ← hb.2.1, hrp]
        rfl
      · intro d hd hx
        rcases List.mem_cons.mp hd with rfl | hd
        · rw [← hb.2.1, hrp]; rfl
        · exact a3 d hd hx

/-- **C126**, without errors the function is `recalculate` on every dataset, and the table is empty. -/
theorem C126_all {M : MathEnv} {F : FormulaEnv} {ord : Dataset → Except Err (List String)} {data out : List Dataset} (h : mapE (recalculateO M F ord) data = .ok out) :
    recalculateAll M F ord data = (out, [], .ok ()) := by
  induction data generalizing out with
  | nil => cases h; rfl
  | cons ds rest ih =>
    obtain ⟨b, r, hb, hr, rfl⟩ := mapE_cons_ok.mp h
    rw [recalculateAll]
    rcases agrees_recalculate M F ord ds with ⟨b', h1, h2⟩ | ⟨b', e, h1, h2⟩
    · rw [hb] at h1
      cases h1
      rw [h2]
      simp only
      rw [ih hr]
    · rw [hb] at h1; cases h1

/-- **C126** fails, first reason: a dataset whose named parameters can be computed, but with a formula that raises, is only listed in the table and yet changed: every object before that formula has its
new amount, the others their old one. The full property asks that a dataset in the table is as it was. -/
theorem C126_half_updated (M : MathEnv) (F : FormulaEnv) (ord : Dataset → Except Err (List String)) (ds : Dataset) (order : List String) (σ : String → Option ℚ) (e : Err)
    (ho : ord ds = .ok order) (hσ : evaluateParams F (extractNamedParameters ds) order F.base = .ok σ) (hf : ds.mapNumE (recalcObj F σ) = .error e) :
    recalculateO M F ord ds = .error e ∧ (recalculateS M F ord ds).2 = .error e ∧ StoppedAt (recalcObj F σ) e ds.numObjs (recalculateS M F ord ds).1.numObjs := by
  have hs := stops_dataset (recalcObj F σ) ds
  refine ⟨by simp [recalculateO, recalculate, ho, hσ, hf, bind, Except.bind], ?_⟩
  unfold recalculateS
  rw [ho]
  simp only
  rw [hσ]
  simp only
  rcases agrees_dataset (recalcObj F σ) ds with ⟨b, h1, h2⟩ | ⟨b, x, h1, h2⟩
  · rw [hf] at h1; cases h1
  · rw [hf] at h1
    cases h1
    rw [h2] at hs ⊢
    exact ⟨rfl, hs.1 e rfl⟩

/-- **C126**, what holds of it: a dataset whose references are circular, or in which a named parameter cannot be computed, is left exactly as it was. Missing: datasets in which another formula fails
(`C126_half_updated`). -/
theorem C126_untouched_partial (M : MathEnv) (F : FormulaEnv) (ord : Dataset → Except Err (List String)) (ds : Dataset) (e : Err)
    (h : ord ds = .error e ∨ ∃ order, ord ds = .ok order ∧ evaluateParams F (extractNamedParameters ds) order F.base = .error e) :
    recalculateS M F ord ds = (ds, .error e) := by
  unfold recalculateS
  rcases h with h | ⟨order, h, h'⟩
  · rw [h]
  · rw [h]
    simp only
    rw [h']

/-- **C126** fails, second reason: an error that is not one of formulas, such as that of a distribution which cannot be repaired, is not logged; it ends the function, and all datasets behind it are as they were. -/
theorem C126_stops (M : MathEnv) (F : FormulaEnv) (ord : Dataset → Except Err (List String)) (pre post out : List Dataset) (ds : Dataset) (e : Err)
    (hpre : mapE (recalculateO M F ord) pre = .ok out) (h : recalculateO M F ord ds = .error e) (he : ¬ FormulaError e) :
    ∃ ds', recalculateAll M F ord (pre ++ ds :: post) = (out ++ ds' :: post, [], .error e) := by
  induction pre generalizing out with
  | nil =>
    cases hpre
    rw [List.nil_append, recalculateAll]
    rcases agrees_recalculate M F ord ds with ⟨b, h1, h2⟩ | ⟨b, x, h1, h2⟩
    · rw [h] at h1; cases h1
    · rw [h] at h1
      cases h1
      rw [h2]
      simp only
      rw [if_neg (fun hc => he ((caught_iff _).mp hc))]
      exact ⟨b, rfl⟩
  | cons d pre ih =>
    obtain ⟨b, r, hb, hr, rfl⟩ := mapE_cons_ok.mp hpre
    obtain ⟨ds', hx⟩ := ih r hr
    rw [List.cons_append, recalculateAll]
    rcases agrees_recalculate M F ord d with ⟨b', h1, h2⟩ | ⟨b', x, h1, h2⟩
    · rw [hb] at h1
      cases h1
      rw [h2]
      simp only
      rw [hx]
      exact ⟨ds', rfl⟩
    · rw [hb] at h1; cases h1

namespace Spec

/-- The dataset of the examples of C56 with one more formula, which nobody can read. -/
def exampleHalf : Dataset :=
  { exampleParamDs with refProduct := some "p", exchanges := exampleParamDs.exchanges ++ [{ name := "w", type := .toEnvironment, amount := 8, formula := some "x +* 2" }, { name := "v", type := .toEnvironment, amount := 5, formula := some "x * 2" }] }

/-- A dataset with a distribution that the program does not know. -/
def exampleGamma : Dataset := { name := "g", refProduct := some "q", exchanges := [{ name := "q", type := .referenceProduct, amount := 1, uncertainty := some { kind := some (.other "gamma") } }] }

/-- The evaluation order of the examples; the dataset `g` has no parameters. -/
def exampleOrd : Dataset → Except Err (List String) := fun ds => if ds.name = "g" then .ok [] else .ok ["x", "z", "y"]

end Spec

/- The failing dataset is listed, but its second and third amounts are new (6 and 0 instead of 9 and 7), and the last one is old (5 instead of 6); the next dataset is recalculated. -/
example : (recalculateAll sampleM exampleF exampleOrd [exampleHalf, exampleParamDs]).2 = ([("a", "p", "GLO")], .ok ()) := by decide +kernel
example : (recalculateAll sampleM exampleF exampleOrd [exampleHalf, exampleParamDs]).1.map (fun ds => ds.exchanges.map (·.amount)) = [[3, 6, 0, 8, 5], [3, 6, 0]] := by decide +kernel
example : ∃ σ, evaluateParams exampleF (extractNamedParameters exampleHalf) ["x", "z", "y"] exampleF.base = .ok σ ∧ exampleHalf.mapNumE (recalcObj exampleF σ) = .error .parameterError := ⟨_, rfl, by decide +kernel⟩
/- The unknown distribution ends everything. -/
example : (recalculateAll sampleM exampleF exampleOrd [exampleParamDs, exampleGamma, exampleParamDs]).2 = ([], .error .unsupportedDistribution) := by decide +kernel
example : (recalculateAll sampleM exampleF exampleOrd [exampleParamDs, exampleGamma, exampleParamDs]).1.map (fun ds => ds.exchanges.map (·.amount)) = [[3, 6, 0], [1], [3, 9, 7]] := by decide +kernel

end Ocelot
