import Verif.Spec.Units
import Verif.Model.Pipeline
import Verif.Proofs.ListLemmas
import Mathlib.Tactic.Ring
import Mathlib.Tactic.FieldSimp
import Mathlib.Tactic.Linarith
import Mathlib.Algebra.BigOperators.Group.List.Basic
import Mathlib.Algebra.BigOperators.Ring.List

/-! Two computations that raise the same exception or give related results; exchanges and datasets measured in other units. -/

namespace Ocelot
namespace Units
open Spec

/-! ## Related computations -/

/-- Both computations raise the same exception, or both give results, which are related. -/
def ER {α β : Type} (R : α → β → Prop) : Except Err α → Except Err β → Prop
  | .ok a, .ok b => R a b
  | .error e, .error e' => e = e'
  | _, _ => False

section ER
variable {α β γ δ : Type} {R : α → β → Prop} {Q : γ → δ → Prop}

theorem ER.ok {a : α} {b : β} (h : R a b) : ER R (.ok a) (.ok b) := h

theorem ER.err (e : Err) : ER R (.error e) (.error e) := rfl

theorem ER.bind {x : Except Err α} {y : Except Err β} {f : α → Except Err γ} {g : β → Except Err δ} (h : ER R x y)
    (hf : ∀ a b, R a b → ER Q (f a) (g b)) : ER Q (x >>= f) (y >>= g) := by
  cases x <;> cases y
  · exact h
  · exact h.elim
  · exact h.elim
  · exact hf _ _ h

theorem ER.mono {R' : α → β → Prop} {x : Except Err α} {y : Except Err β} (h : ER R x y) (hR : ∀ a b, R a b → R' a b) : ER R' x y := by
  cases x <;> cases y
  · exact h
  · exact h.elim
  · exact h.elim
  · exact hR _ _ h

theorem ER.ite {c c' : Prop} [Decidable c] [Decidable c'] {x y : Except Err α} {x' y' : Except Err β} (hc : c ↔ c') (h1 : c → ER R x x')
    (h2 : ¬ c → ER R y y') : ER R (if c then x else y) (if c' then x' else y') := by
  by_cases h : c
  · rw [if_pos h, if_pos (hc.mp h)]; exact h1 h
  · rw [if_neg h, if_neg (hc.not.mp h)]; exact h2 h

theorem ER.refl (x : Except Err α) : ER Eq x x := by cases x <;> exact rfl

theorem ER.eq {x y : Except Err α} (h : ER Eq x y) : x = y := by
  cases x <;> cases y
  · exact congrArg _ h
  · exact h.elim
  · exact h.elim
  · exact congrArg _ h

theorem ER.mem {x : Except Err α} {y : Except Err β} (h : ER R x y) : ER (fun a b => R a b ∧ x = .ok a ∧ y = .ok b) x y := by
  cases x <;> cases y
  · exact h
  · exact h.elim
  · exact h.elim
  · exact ⟨h, rfl, rfl⟩

theorem ER.getKey {o : Option α} {o' : Option β} (h : Option.Rel R o o') : ER R (getKey o) (getKey o') := by
  cases h with
  | some h => exact h
  | none => exact rfl

theorem ER.mapE {f : α → Except Err γ} {g : β → Except Err δ} {l : List α} {l' : List β} (h : List.Forall₂ R l l')
    (hf : ∀ a b, R a b → ER Q (f a) (g b)) : ER (List.Forall₂ Q) (mapE f l) (mapE g l') := by
  induction h with
  | nil => exact List.Forall₂.nil
  | cons hab _ ih => exact (hf _ _ hab).bind fun c d hcd => ih.bind fun r r' hr => .cons hcd hr

theorem ER.filterE {p : α → Except Err Bool} {q : β → Except Err Bool} {l : List α} {l' : List β} (h : List.Forall₂ R l l')
    (hp : ∀ a b, R a b → p a = q b) : ER (List.Forall₂ fun a b => R a b ∧ p a = .ok true) (filterE p l) (filterE q l') := by
  induction h with
  | nil => exact List.Forall₂.nil
  | @cons a b l l' hab _ ih =>
    unfold Ocelot.filterE
    rw [← hp _ _ hab]
    cases hpa : p a with
    | error e => exact rfl
    | ok c =>
      refine ih.bind fun r r' hr => ?_
      cases c
      · exact hr
      · exact List.Forall₂.cons ⟨hab, hpa⟩ hr

theorem ER.flatMapE {f : α → Except Err (List γ)} {g : β → Except Err (List δ)} {l : List α} {l' : List β} (h : List.Forall₂ R l l')
    (hf : ∀ a b, R a b → ER (List.Forall₂ Q) (f a) (g b)) : ER (List.Forall₂ Q) (flatMapE f l) (flatMapE g l') := by
  induction h with
  | nil => exact List.Forall₂.nil
  | cons hab _ ih => exact (hf _ _ hab).bind fun c d hcd => ih.bind fun r r' hr => List.rel_append hcd hr

theorem ER.forE {f : α → Except Err Unit} {g : β → Except Err Unit} {l : List α} {l' : List β} (h : List.Forall₂ R l l')
    (hf : ∀ a b, R a b → f a = g b) : Ocelot.forE f l = Ocelot.forE g l' := by
  induction h with
  | nil => rfl
  | cons hab _ ih => unfold Ocelot.forE; rw [hf _ _ hab, ih]

theorem ER.foldE {σ σ' : Type} {S : σ → σ' → Prop} {f : σ → α → Except Err σ} {g : σ' → β → Except Err σ'} {l : List α} {l' : List β}
    (h : List.Forall₂ R l l') {s : σ} {s' : σ'} (hs : S s s') (hf : ∀ s s' a b, S s s' → R a b → ER S (f s a) (g s' b)) :
    ER S (foldE f s l) (foldE g s' l') := by
  induction h generalizing s s' with
  | nil => exact hs
  | cons hab _ ih => exact (hf _ _ _ _ hs hab).bind fun t t' ht => ih ht

theorem ER.scanE {σ σ' : Type} {S : σ → σ' → Prop} {f : σ → α → Except Err (σ × γ)} {g : σ' → β → Except Err (σ' × δ)} {l : List α} {l' : List β}
    (h : List.Forall₂ R l l') {s : σ} {s' : σ'} (hs : S s s')
    (hf : ∀ s s' a b, S s s' → R a b → ER (fun p p' => S p.1 p'.1 ∧ Q p.2 p'.2) (f s a) (g s' b)) :
    ER (List.Forall₂ Q) (scanE f s l) (scanE g s' l') := by
  induction h generalizing s s' with
  | nil => exact List.Forall₂.nil
  | cons hab _ ih => exact (hf _ _ _ _ hs hab).bind fun p p' hp => (ih hp.1).bind fun r r' hr => List.Forall₂.cons hp.2 hr

end ER

theorem refl_list {α : Type} (l : List α) : List.Forall₂ Eq l l := by
  induction l with
  | nil => exact .nil
  | cons a l ih => exact .cons rfl ih

theorem forall₂_imp {α β : Type} {R S : α → β → Prop} (h : ∀ a b, R a b → S a b) {l : List α} {l' : List β} (hl : List.Forall₂ R l l') :
    List.Forall₂ S l l' := hl.imp fun {a b} hab => h a b hab

theorem filter_rel {α β : Type} {R : α → β → Prop} {p : α → Bool} {q : β → Bool} (h : ∀ a b, R a b → p a = q b) {l : List α} {l' : List β}
    (hl : List.Forall₂ R l l') : List.Forall₂ (fun a b => R a b ∧ p a = true) (l.filter p) (l'.filter q) := by
  induction hl with
  | nil => exact .nil
  | @cons a b l l' hab _ ih =>
    rw [List.filter_cons, List.filter_cons, ← h a b hab]
    cases hp : p a
    · simpa using ih
    · simpa using ⟨⟨hab, hp⟩, ih⟩

theorem map_rel {α β γ δ : Type} {R : α → β → Prop} {Q : γ → δ → Prop} {f : α → γ} {g : β → δ} (h : ∀ a b, R a b → Q (f a) (g b)) {l : List α}
    {l' : List β} (hl : List.Forall₂ R l l') : List.Forall₂ Q (l.map f) (l'.map g) := by
  induction hl with
  | nil => exact .nil
  | cons hab _ ih => exact .cons (h _ _ hab) ih

theorem map_eq_rel {α β γ : Type} {R : α → β → Prop} {f : α → γ} {g : β → γ} (h : ∀ a b, R a b → f a = g b) {l : List α}
    {l' : List β} (hl : List.Forall₂ R l l') : l.map f = l'.map g := by
  induction hl with
  | nil => rfl
  | cons hab _ ih => simp [h _ _ hab, ih]

theorem any_rel {α β : Type} {R : α → β → Prop} {p : α → Bool} {q : β → Bool} (h : ∀ a b, R a b → p a = q b) {l : List α} {l' : List β}
    (hl : List.Forall₂ R l l') : l.any p = l'.any q := by
  induction hl with
  | nil => rfl
  | cons hab _ ih => simp [h _ _ hab, ih]

theorem all_rel {α β : Type} {R : α → β → Prop} {p : α → Bool} {q : β → Bool} (h : ∀ a b, R a b → p a = q b) {l : List α} {l' : List β}
    (hl : List.Forall₂ R l l') : l.all p = l'.all q := by
  induction hl with
  | nil => rfl
  | cons hab _ ih => simp [h _ _ hab, ih]

theorem nil_rel {α β : Type} {R : α → β → Prop} {l : List α} {l' : List β} (hl : List.Forall₂ R l l') : l = [] ↔ l' = [] := by
  cases hl <;> simp

theorem sum_rel {l l' : List ℚ} {c : ℚ} (h : List.Forall₂ (fun a b => b = c * a) l l') : l'.sum = c * l.sum := by
  induction h with
  | nil => simp
  | cons hab _ ih => simp [hab, ih, mul_add]

theorem groupInsert_rel {κ α β : Type} [DecidableEq κ] {R : α → β → Prop} (k : κ) {a : α} {b : β} (hab : R a b)
    {d : List (κ × List α)} {d' : List (κ × List β)} (h : List.Forall₂ (fun g g' => g.1 = g'.1 ∧ List.Forall₂ R g.2 g'.2) d d') :
    List.Forall₂ (fun g g' => g.1 = g'.1 ∧ List.Forall₂ R g.2 g'.2) (groupInsert k a d) (groupInsert k b d') := by
  induction h with
  | nil => exact .cons ⟨rfl, .cons hab .nil⟩ .nil
  | @cons g g' d d' hg hd ih =>
    obtain ⟨k1, l1⟩ := g
    obtain ⟨k2, l2⟩ := g'
    obtain ⟨rfl, hl⟩ := hg
    unfold groupInsert
    by_cases hk : k1 = k
    · rw [if_pos hk, if_pos hk]
      exact .cons ⟨rfl, List.rel_append hl (.cons hab .nil)⟩ hd
    · rw [if_neg hk, if_neg hk]
      exact .cons ⟨rfl, hl⟩ ih

theorem groupBy_rel {κ α β : Type} [DecidableEq κ] {R : α → β → Prop} {key : α → κ} {key' : β → κ} (hk : ∀ a b, R a b → key a = key' b)
    {l : List α} {l' : List β} (h : List.Forall₂ R l l') :
    List.Forall₂ (fun g g' => g.1 = g'.1 ∧ List.Forall₂ R g.2 g'.2) (groupBy key l) (groupBy key' l') := by
  unfold groupBy
  suffices H : ∀ (d : List (κ × List α)) (d' : List (κ × List β)), List.Forall₂ (fun g g' => g.1 = g'.1 ∧ List.Forall₂ R g.2 g'.2) d d' →
      List.Forall₂ (fun g g' => g.1 = g'.1 ∧ List.Forall₂ R g.2 g'.2) (l.foldl (fun acc a => groupInsert (key a) a acc) d)
        (l'.foldl (fun acc a => groupInsert (key' a) a acc) d') from H [] [] .nil
  induction h with
  | nil => intro d d' hd; exact hd
  | cons hab _ ih =>
    intro d d' hd
    simp only [List.foldl_cons]
    rw [← hk _ _ hab]
    exact ih _ _ (groupInsert_rel _ hab hd)

theorem dictSet_rel {κ α β : Type} [DecidableEq κ] {R : κ → α → β → Prop} (k : κ) {a : α} {b : β} (hab : R k a b)
    {d : List (κ × α)} {d' : List (κ × β)} (h : List.Forall₂ (fun g g' => g.1 = g'.1 ∧ R g.1 g.2 g'.2) d d') :
    List.Forall₂ (fun g g' => g.1 = g'.1 ∧ R g.1 g.2 g'.2) (dictSet k a d) (dictSet k b d') := by
  induction h with
  | nil => exact .cons ⟨rfl, hab⟩ .nil
  | @cons g g' d d' hg hd ih =>
    obtain ⟨k1, l1⟩ := g
    obtain ⟨k2, l2⟩ := g'
    obtain ⟨rfl, hl⟩ := hg
    unfold dictSet
    by_cases hk : k1 = k
    · rw [if_pos hk, if_pos hk]
      subst hk
      exact .cons ⟨rfl, hab⟩ hd
    · rw [if_neg hk, if_neg hk]
      exact .cons ⟨rfl, hl⟩ ih

theorem dictOf_rel {κ α β γ δ : Type} [DecidableEq κ] {R : α → β → Prop} {Q : κ → γ → δ → Prop} {key : α → κ} {key' : β → κ} {val : α → γ} {val' : β → δ}
    (hk : ∀ a b, R a b → key a = key' b) (hv : ∀ a b, R a b → Q (key a) (val a) (val' b)) {l : List α} {l' : List β} (h : List.Forall₂ R l l') :
    List.Forall₂ (fun g g' => g.1 = g'.1 ∧ Q g.1 g.2 g'.2) (dictOf key val l) (dictOf key' val' l') := by
  unfold dictOf
  suffices H : ∀ (d : List (κ × γ)) (d' : List (κ × δ)), List.Forall₂ (fun g g' => g.1 = g'.1 ∧ Q g.1 g.2 g'.2) d d' →
      List.Forall₂ (fun g g' => g.1 = g'.1 ∧ Q g.1 g.2 g'.2) (l.foldl (fun acc a => dictSet (key a) (val a) acc) d)
        (l'.foldl (fun acc a => dictSet (key' a) (val' a) acc) d') from H [] [] .nil
  induction h with
  | nil => intro d d' hd; exact hd
  | cons hab _ ih =>
    intro d d' hd
    simp only [List.foldl_cons]
    rw [← hk _ _ hab]
    exact ih _ _ (dictSet_rel _ (hv _ _ hab) hd)

theorem lookup_rel {κ α β : Type} [DecidableEq κ] {R : κ → α → β → Prop} {d : List (κ × α)} {d' : List (κ × β)}
    (h : List.Forall₂ (fun g g' => g.1 = g'.1 ∧ R g.1 g.2 g'.2) d d') (k : κ) : Option.Rel (R k) (d.lookup k) (d'.lookup k) := by
  induction h with
  | nil => exact .none
  | @cons g g' d d' hg _ ih =>
    obtain ⟨k1, a⟩ := g
    obtain ⟨k2, b⟩ := g'
    obtain ⟨rfl, hab⟩ := hg
    simp only [List.lookup_cons]
    by_cases hk : k = k1
    · subst hk
      simpa using Option.Rel.some hab
    · rw [beq_false_of_ne hk]
      exact ih

/-! ## Exchanges -/

/-- An exchange that fits; a recyclable byproduct is allowed only if `nr` is false. -/
def Ok (u : Spec.Units) (nr : Bool) (e : Exchange) : Prop := u.Fits e ∧ (nr = true → ¬ RecyclableOutput e)

/-- The second exchange is the first one measured in other units. -/
def RE (u : Spec.Units) (nr : Bool) (e e' : Exchange) : Prop := Ok u nr e ∧ e' = u.exc e

/-- The second dataset is the first one measured in other units; suppliers are compared if the type is in `K`. -/
def RD (u : Spec.Units) (nr : Bool) (K : DsType → Prop) (d d' : Dataset) : Prop :=
  ∃ ex' s', d' = { d with exchanges := ex', suppliers := s' } ∧ List.Forall₂ (RE u nr) d.exchanges ex' ∧ d.name ∉ confidentialNames ∧
    (K d.type → Option.Rel (List.Forall₂ (RE u nr)) d.suppliers s')

variable {u : Spec.Units} {nr : Bool} {K : DsType → Prop}

theorem list_iff {l l' : List Exchange} : List.Forall₂ (RE u nr) l l' ↔ (∀ e ∈ l, Ok u nr e) ∧ l' = l.map u.exc := by
  constructor
  · intro h
    induction h with
    | nil => simp
    | cons hab _ ih =>
      obtain ⟨h1, rfl⟩ := hab
      obtain ⟨h2, rfl⟩ := ih
      exact ⟨by simpa using ⟨h1, h2⟩, rfl⟩
  · rintro ⟨h, rfl⟩
    induction l with
    | nil => exact .nil
    | cons a l ih => exact .cons ⟨h a (by simp), rfl⟩ (ih fun e he => h e (by simp [he]))

theorem opt_iff {s s' : Option (List Exchange)} : Option.Rel (List.Forall₂ (RE u nr)) s s' ↔
    (∀ l, s = some l → ∀ e ∈ l, Ok u nr e) ∧ s' = s.map fun l => l.map u.exc := by
  constructor
  · intro h
    cases h with
    | some h =>
      obtain ⟨h1, rfl⟩ := list_iff.mp h
      exact ⟨by rintro l ⟨⟩; exact h1, rfl⟩
    | none => exact ⟨by rintro l ⟨⟩, rfl⟩
  · rintro ⟨h, rfl⟩
    cases s with
    | none => exact .none
    | some l => exact .some (list_iff.mpr ⟨h l rfl, rfl⟩)

/-- If suppliers are compared, the second dataset is determined by the first. -/
theorem RD.eq {d d' : Dataset} (h : RD u nr K d d') (hK : K d.type) : d' = u.ds d := by
  obtain ⟨ex', s', rfl, hex, -, hs⟩ := h
  rw [(list_iff.mp hex).2, (opt_iff.mp (hs hK)).2]
  rfl

theorem RE.flow {e e' : Exchange} (h : RE u nr e e') (ht : e.type ≠ .fromEnvironment) (ht' : e.type ≠ .toEnvironment) : u.flow e.id = 1 := by
  by_contra hf
  rcases (h.1.1.flow hf).1 with h' | h'
  · exact ht h'
  · exact ht' h'

theorem RE.amount {e e' : Exchange} (h : RE u nr e e') (ht : e.type ≠ .fromEnvironment) (ht' : e.type ≠ .toEnvironment) : e'.amount = e.amount := by
  obtain ⟨h1, rfl⟩ := h
  simp [Spec.Units.exc, RE.flow ⟨h1, rfl⟩ ht ht']

theorem pv_injective (hu : u.Proper) : Function.Injective u.pv := by
  intro a b h
  have hc : u.volume ≠ 0 := hu.volume.ne'
  have hi : Function.Injective (fun o : Option ℚ => o.map fun x => u.volume * x) := Option.map_injective (mul_right_injective₀ hc)
  have h0 := congrArg (fun p : PV => p.toNumObj.amount) h
  have h1 := hi (congrArg PV.subtracted h)
  have h2 := hi (congrArg PV.originalAmount h)
  have h3 := hi (congrArg PV.globalAmount h)
  have h4 := hi (congrArg PV.originalTotal h)
  have h5 := congrArg (fun p : PV => p.toNumObj.formula) h
  have h6 := congrArg (fun p : PV => p.toNumObj.var) h
  have h7 := congrArg (fun p : PV => p.toNumObj.uncertainty) h
  have h8 := congrArg (fun p : PV => p.toNumObj.pedigree) h
  have h0' := mul_left_cancel₀ hc h0
  obtain ⟨⟨⟩, _, _, _, _⟩ := a
  obtain ⟨⟨⟩, _, _, _, _⟩ := b
  simp only [Spec.Units.pv] at h0' h1 h2 h3 h4 h5 h6 h7 h8
  simp [h0', h1, h2, h3, h4, h5, h6, h7, h8]

theorem prop_injective (hu : u.Proper) : Function.Injective u.prop := by
  intro a b h
  have hn := congrArg Prop'.name h
  have h0 := congrArg (fun p : Prop' => p.toNumObj.amount) h
  have h5 := congrArg (fun p : Prop' => p.toNumObj.formula) h
  have h6 := congrArg (fun p : Prop' => p.toNumObj.var) h
  have h7 := congrArg (fun p : Prop' => p.toNumObj.uncertainty) h
  have h8 := congrArg (fun p : Prop' => p.toNumObj.pedigree) h
  have h1 := congrArg Prop'.id h
  have h2 := congrArg Prop'.unit h
  obtain ⟨⟨⟩, _, n, _⟩ := a
  obtain ⟨⟨⟩, _, n', _⟩ := b
  simp only [Spec.Units.prop] at hn h0 h1 h2 h5 h6 h7 h8
  subst hn
  by_cases hp : n = "price"
  · rw [if_pos hp, if_pos hp] at h0
    simp [mul_left_cancel₀ hu.price.ne' h0, h1, h2, h5, h6, h7, h8]
  · rw [if_neg hp, if_neg hp] at h0
    simp [h0, h1, h2, h5, h6, h7, h8]

theorem exc_injective (hu : u.Proper) : Function.Injective u.exc := by
  intro a b h
  have hi := congrArg Exchange.id h
  have h0 := congrArg (fun p : Exchange => p.toNumObj.amount) h
  have h1 := congrArg (fun p : Exchange => p.toNumObj.formula) h
  have h2 := congrArg (fun p : Exchange => p.toNumObj.var) h
  have h3 := congrArg (fun p : Exchange => p.toNumObj.uncertainty) h
  have h4 := congrArg (fun p : Exchange => p.toNumObj.pedigree) h
  have h5 := Option.map_injective (pv_injective hu) (congrArg Exchange.pv h)
  have h6 := List.map_injective_iff.mpr (prop_injective hu) (congrArg Exchange.properties h)
  have h7 : ({ u.exc a with toNumObj := a.toNumObj, pv := a.pv, properties := a.properties } : Exchange) = { u.exc b with toNumObj := a.toNumObj, pv := a.pv, properties := a.properties } := by
    rw [h]
  have h8 : a.toNumObj = b.toNumObj := by
    have hi' : a.id = b.id := hi
    have h0' : u.flow a.id * a.amount = u.flow b.id * b.amount := h0
    rw [hi'] at h0'
    have := mul_left_cancel₀ (hu.flow b.id).ne' h0'
    cases ha : a.toNumObj
    cases hb : b.toNumObj
    simp_all [Spec.Units.exc]
  calc a = { u.exc a with toNumObj := a.toNumObj, pv := a.pv, properties := a.properties } := rfl
    _ = { u.exc b with toNumObj := a.toNumObj, pv := a.pv, properties := a.properties } := h7
    _ = b := by rw [h5, h6, h8]; rfl

theorem RE.eq_iff (hu : u.Proper) {a a' b b' : Exchange} (ha : RE u nr a a') (hb : RE u nr b b') : a' = b' ↔ a = b := by
  rw [ha.2, hb.2]
  exact (exc_injective hu).eq_iff

theorem RD.eq_iff (hu : u.Proper) {a a' b b' : Dataset} (ha : RD u nr K a a') (hb : RD u nr K b b') (hKa : K a.type) (hKb : K b.type) :
    a' = b' ↔ a = b := by
  rw [ha.eq hKa, hb.eq hKb]
  constructor
  · intro h
    have h1 := List.map_injective_iff.mpr (exc_injective hu) (congrArg Dataset.exchanges h)
    have h2 := Option.map_injective (List.map_injective_iff.mpr (exc_injective hu)) (congrArg Dataset.suppliers h)
    have h3 : ({ u.ds a with exchanges := a.exchanges, suppliers := a.suppliers } : Dataset) = { u.ds b with exchanges := a.exchanges, suppliers := a.suppliers } := by rw [h]
    calc a = { u.ds a with exchanges := a.exchanges, suppliers := a.suppliers } := rfl
      _ = { u.ds b with exchanges := a.exchanges, suppliers := a.suppliers } := h3
      _ = b := by rw [h1, h2]; rfl
  · rintro rfl; rfl

/-! ## Numbers -/

theorem plain_scale {M : MathEnv} {o : NumObj} (h : PlainObj o) (f : ℚ) : o.scale M f = .ok { o with amount := o.amount * f } := by
  unfold NumObj.scale
  split
  · next hf => subst hf; cases o; simp
  · simp [h.2.2]

theorem RE.scale {M : MathEnv} {e e' : Exchange} (h : RE u nr e e') (f : ℚ) : ER (RE u nr) (scaleExchange M e f) (scaleExchange M e' f) := by
  obtain ⟨h1, rfl⟩ := h
  unfold scaleExchange
  by_cases hf : u.flow e.id = 1
  · have : (u.exc e).toNumObj = e.toNumObj := by simp [Spec.Units.exc, hf]
    rw [this]
    refine (ER.refl _).bind ?_
    rintro o _ rfl
    refine ⟨⟨⟨fun hn => absurd hf hn, h1.1.pv, h1.1.price⟩, h1.2⟩, ?_⟩
    simp [Spec.Units.exc, hf]
  · have hp := (h1.1.flow hf).2.1
    have hp' : PlainObj (u.exc e).toNumObj := hp
    rw [plain_scale hp, plain_scale hp']
    refine ⟨⟨⟨fun _ => ⟨(h1.1.flow hf).1, hp, (h1.1.flow hf).2.2⟩, h1.1.pv, h1.1.price⟩, h1.2⟩, ?_⟩
    simp [Spec.Units.exc, mul_assoc]

end Units
end Ocelot
