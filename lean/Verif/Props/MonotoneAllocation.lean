import Verif.Spec.Monotone
import Verif.Props.Monotone
import Verif.Proofs.Economic
import Mathlib.Tactic.Linarith
import Mathlib.Tactic.Ring
import Mathlib.Tactic.FieldSimp
import Mathlib.Tactic.NormNum

/-! # C136: prices and the activities made by economic allocation -/

namespace Ocelot

open Spec

namespace Direction

theorem chosen_perUnit {M : MathEnv} {ds out : Dataset} {x : Exchange} {f : ℚ} (h : chooseReferenceProduct M ds x f = .ok out) (k : String) :
    x.amount ≠ 0 ∧ perUnit out k = f * (burden ds k / x.amount) := by
  obtain ⟨n, hn, -, h0, hr, hb⟩ := choose_burden h
  refine ⟨h0, ?_⟩
  unfold perUnit
  rw [hr, hb]
  have : n ≠ 0 := ne_of_gt hn
  field_simp

theorem zip_get {α β : Type} {R : ℚ × α → β → Prop} {θ : α → ℚ} {l : List α} {r : List β} (h : List.Forall₂ R ((l.map θ).zip l) r) :
    r.length = l.length ∧ ∀ (i : ℕ) x o, l[i]? = some x → r[i]? = some o → R (θ x, x) o := by
  induction l generalizing r with
  | nil => cases h; exact ⟨rfl, fun i x o hx => by simp at hx⟩
  | cons a l ih =>
    rw [List.map_cons, List.zip_cons_cons] at h
    obtain ⟨b, r, hab, hr, rfl⟩ := List.forall₂_cons_left_iff.mp h
    obtain ⟨h1, h2⟩ := ih hr
    refine ⟨by simp [h1], fun i x o hx ho => ?_⟩
    cases i with
    | zero => cases hx; cases ho; exact hab
    | succ i => exact h2 i x o (by simpa using hx) (by simpa using ho)

theorem replaced_get {α : Type} {a b : List α} {e e' : α} (i : ℕ) :
    (i = a.length ∧ (a ++ e :: b)[i]? = some e ∧ (a ++ e' :: b)[i]? = some e') ∨
      i ≠ a.length ∧ (a ++ e :: b)[i]? = (a ++ e' :: b)[i]? ∧ ∀ x, (a ++ e :: b)[i]? = some x → x ∈ a ++ b := by
  induction a generalizing i with
  | nil =>
    cases i with
    | zero => exact Or.inl ⟨rfl, rfl, rfl⟩
    | succ i => exact Or.inr ⟨by simp, rfl, fun x hx => List.mem_of_getElem? (by simpa using hx)⟩
  | cons y a ih =>
    cases i with
    | zero => exact Or.inr ⟨by simp, rfl, fun x hx => by simp at hx; simp [hx]⟩
    | succ i =>
      rcases ih i with ⟨h1, h2, h3⟩ | ⟨h1, h2, h3⟩
      · exact Or.inl ⟨by simp [h1], by simpa using h2, by simpa using h3⟩
      · exact Or.inr ⟨by simpa using h1, by simpa using h2, fun x hx => List.mem_cons_of_mem _ (h3 x (by simpa using hx))⟩

end Direction

open Direction

/-- C136: if one product gets dearer, the activity for it does not take or emit less of anything per unit, and the activities for other
products do not take or emit more; except that products with true values share the revenue of all of them. -/
theorem C136_allocation (M : MathEnv) (ds : Dataset) (a b : List Exchange) (e e' : Exchange) (outs outs' : List Dataset) (hx : ds.exchanges = a ++ e :: b)
    (hp : isProduction e = true) (hee : e' = { e with properties := e'.properties }) (hd : Dearer e e')
    (htv : ∀ x ∈ production ds, ∀ v, propValue x "true value relation" = some v → 0 ≤ v) (h : economicAllocation M ds = .ok outs)
    (h' : economicAllocation M { ds with exchanges := a ++ e' :: b } = .ok outs') :
    outs.length = (production ds).length ∧ outs'.length = outs.length ∧
    ∀ (i : ℕ) x o o', (production ds)[i]? = some x → outs[i]? = some o → outs'[i]? = some o' → ∀ k, 0 ≤ burden ds k →
      if i = (a.filter isProduction).length ∨ (hasTv e = true ∧ hasTv x = true) then perUnit o k ≤ perUnit o' k else perUnit o' k ≤ perUnit o k := by
  have hp' : isProduction e' = true := by
    rw [← hp, hee]
    rfl
  have hP : production ds = a.filter isProduction ++ e :: b.filter isProduction := by
    unfold production
    rw [hx, List.filter_append, List.filter_cons, if_pos hp]
  have hP' : production { ds with exchanges := a ++ e' :: b } = a.filter isProduction ++ e' :: b.filter isProduction := by
    unfold production
    simp only
    rw [List.filter_append, List.filter_cons, if_pos hp']
  have hB : ∀ k, burden { ds with exchanges := a ++ e' :: b } k = burden ds k := by
    intro k
    unfold burden nonproduction
    simp only
    rw [hx]
    simp only [List.filter_append, List.filter_cons, hp, hp', Bool.not_true, Bool.false_eq_true, if_false]
  obtain ⟨-, hpos, fs, hf, -, h2⟩ := economicAllocation_inv h
  obtain ⟨-, -, fs', hf', -, h2'⟩ := economicAllocation_inv h'
  rw [hP] at h2 hf hpos htv
  rw [hP'] at h2' hf'
  rw [hP]
  generalize a.filter isProduction = pa at *
  generalize b.filter isProduction = pb at *
  have hn : ∀ x ∈ pa ++ e :: pb, NonNegative x := by
    intro x hxm
    obtain ⟨-, h3, p, h4, h5⟩ := hpos x hxm
    exact ⟨h3, fun q hq => by rw [h4] at hq; cases hq; exact h5, htv x hxm⟩
  obtain ⟨θ, θ', rfl, hfs', hθ, hothers⟩ := C136_price pa pb e e' fs hf hd hn
  rw [hf'] at hfs'
  cases hfs'
  obtain ⟨hlen, hget⟩ := zip_get h2
  obtain ⟨hlen', hget'⟩ := zip_get h2'
  refine ⟨hlen, by rw [hlen, hlen']; simp, fun i x o o' hi ho ho' k hk => ?_⟩
  obtain ⟨hx0, hu⟩ := chosen_perUnit (hget i x o hi ho) k
  have hq : 0 ≤ burden ds k / x.amount := div_nonneg hk (hn x (List.mem_of_getElem? hi)).1
  rcases replaced_get (a := pa) (b := pb) (e := e) (e' := e') i with ⟨h3, h4, h5⟩ | ⟨h3, h4, h5⟩
  · rw [h4] at hi
    cases hi
    obtain ⟨-, hu'⟩ := chosen_perUnit (hget' i e' o' h5 ho') k
    rw [if_pos (Or.inl h3), hu, hu', hB, hd.amount]
    exact mul_le_mul_of_nonneg_right hθ hq
  · obtain ⟨-, hu'⟩ := chosen_perUnit (hget' i x o' (h4 ▸ hi) ho') k
    have := hothers x (h5 x hi)
    rw [hu, hu', hB]
    by_cases ht : hasTv e = true ∧ hasTv x = true
    · rw [if_pos (Or.inr ht)]
      rw [if_pos ht] at this
      exact mul_le_mul_of_nonneg_right this hq
    · rw [if_neg (by rintro (h | h); exacts [h3 h, ht h])]
      rw [if_neg ht] at this
      exact mul_le_mul_of_nonneg_right this hq

/-- An activity with two products and one input. -/
def pricedPair (p : ℚ) : Dataset := { name := "a", location := "GLO", type := .transforming, exchanges := [{ id := "x", name := "x", type := .referenceProduct, amount := 2, properties := [{ name := "price", amount := 1 }] },
    { id := "y", name := "y", type := .byproduct, cls := some .allocatable, amount := 1, properties := [{ name := "price", amount := p }] }, { id := "i", name := "i", type := .fromTechnosphere, amount := 12 }] }

example : (economicAllocation { log := fun _ => 0, e := 1 } (pricedPair 2)).map (fun l => l.map fun d => perUnit d "i") = .ok [3, 6] := by decide +kernel
example : (economicAllocation { log := fun _ => 0, e := 1 } (pricedPair 4)).map (fun l => l.map fun d => perUnit d "i") = .ok [2, 8] := by decide +kernel

end Ocelot
