import Verif.Model.Utils
import Verif.Spec.Datasets
import Verif.Proofs.ListLemmas
import Verif.Proofs.Uncertainty

namespace Ocelot
open Spec

theorem isAllocatable_ok {e : Exchange} (h : e.type = .byproduct → e.cls ≠ none) :
    isAllocatable e = .ok (isProduction e) := by
  unfold isAllocatable isProduction
  rcases hc : e.cls with _ | c <;> cases ht : e.type <;> simp_all

theorem isAllocatable_ok' {e : Exchange} {b : Bool} (h : isAllocatable e = .ok b) :
    (e.type = .byproduct → e.cls ≠ none) ∧ b = isProduction e := by
  have : e.type = .byproduct → e.cls ≠ none := by
    intro ht hc
    simp [isAllocatable, ht, hc] at h
  refine ⟨this, ?_⟩
  rw [isAllocatable_ok this] at h
  exact (Except.ok.inj h).symm

theorem allocatableProduction_ok {ds : Dataset} (h : Classified ds) :
    allocatableProduction ds = .ok (production ds) :=
  filterE_eq_filter fun e he => isAllocatable_ok (h e he)

theorem allocatableProduction_inv {ds : Dataset} {l : List Exchange}
    (h : allocatableProduction ds = .ok l) : Classified ds ∧ l = production ds := by
  have hc : Classified ds := by
    intro e he ht
    obtain ⟨b, hb⟩ := filterE_ok_all h e he
    exact (isAllocatable_ok' hb).1 ht
  rw [allocatableProduction_ok hc] at h
  exact ⟨hc, (Except.ok.inj h).symm⟩

theorem nonproductionExchanges_ok {ds : Dataset} (h : Classified ds) :
    nonproductionExchanges ds = .ok (nonproduction ds) :=
  filterE_eq_filter fun e he => by rw [isAllocatable_ok (h e he)]; rfl

theorem getSingle_ok {ds : Dataset} {e : Exchange} :
    getSingleReferenceProduct ds = .ok e ↔ refs ds = [e] := by
  unfold getSingleReferenceProduct
  change (match refs ds with | [] => _ | [e] => _ | _ :: _ :: _ => _) = _ ↔ _
  rcases refs ds with _ | ⟨a, _ | ⟨b, l⟩⟩ <;> simp

theorem scaleExchange_scaled {M : MathEnv} {e e' : Exchange} {f : ℚ}
    (h : scaleExchange M e f = .ok e') : ScaledBy f e e' := by
  obtain ⟨o, ho, h2⟩ := bind_eq_ok.mp h
  cases h2
  have h1 := scale_frame ho
  unfold ScaledBy
  rw [h1]

theorem scaleExchange_certain {M : MathEnv} {e : Exchange} (f : ℚ) (hu : e.uncertainty = none) :
    scaleExchange M e f = .ok { e with amount := e.amount * f } := by
  unfold scaleExchange NumObj.scale
  split
  · next h => subst h; simp
  · simp [hu]

theorem Spec.ScaledBy.type {f : ℚ} {e e' : Exchange} (h : ScaledBy f e e') : e'.type = e.type := by
  rw [h]

theorem Spec.ScaledBy.amount {f : ℚ} {e e' : Exchange} (h : ScaledBy f e e') :
    e'.amount = e.amount * f := by rw [h]

theorem Spec.ScaledBy.id {f : ℚ} {e e' : Exchange} (h : ScaledBy f e e') : e'.id = e.id := by rw [h]

theorem Spec.ScaledBy.cls {f : ℚ} {e e' : Exchange} (h : ScaledBy f e e') : e'.cls = e.cls := by rw [h]

theorem Spec.ScaledBy.name {f : ℚ} {e e' : Exchange} (h : ScaledBy f e e') : e'.name = e.name := by rw [h]

theorem Spec.ScaledBy.prod {f : ℚ} {e e' : Exchange} (h : ScaledBy f e e') :
    isProduction e' = isProduction e := by unfold isProduction; rw [h.type, h.cls]

theorem Spec.ScaledBy.refl (e : Exchange) : ScaledBy 1 e e := by unfold ScaledBy; simp

theorem Spec.ScaledBy.trans {f g : ℚ} {a b c : Exchange} (h : ScaledBy f a b) (h' : ScaledBy g b c) :
    ScaledBy (f * g) a c := by
  unfold ScaledBy at *
  rw [h', h]
  simp [mul_assoc]

theorem forall₂_scaled_refl (l : List Exchange) : List.Forall₂ (ScaledBy 1) l l := by
  induction l with
  | nil => exact .nil
  | cons a l ih => exact .cons (.refl a) ih

theorem forall₂_filter_rel {α β : Type} {R : α → β → Prop} {p : α → Bool} {q : β → Bool} {l : List α}
    {r : List β} (h : List.Forall₂ R l r) (hpq : ∀ a b, R a b → p a = q b) :
    List.Forall₂ R (l.filter p) (r.filter q) := by
  induction h with
  | nil => exact .nil
  | @cons a b l r hab _ ih =>
    by_cases hb : q b = true
    · rw [List.filter_cons_of_pos (by rw [hpq a b hab, hb]), List.filter_cons_of_pos hb]
      exact .cons hab ih
    · rw [List.filter_cons_of_neg (by rw [hpq a b hab]; exact hb), List.filter_cons_of_neg hb]
      exact ih

theorem forall₂_mapE_scale {M : MathEnv} {f : ℚ} {l r : List Exchange}
    (h : mapE (fun e => scaleExchange M e f) l = .ok r) : List.Forall₂ (ScaledBy f) l r :=
  (mapE_ok_iff.mp h).imp fun _ _ h => scaleExchange_scaled h

theorem normalize_inv {M : MathEnv} {ds ds' : Dataset} (h : normalize M ds = .ok ds') :
    ∃ rp, refs ds = [rp] ∧ rp.amount ≠ 0 ∧
      ((|1 / |rp.amount| - 1| ≤ 1 / 10 ^ 14 ∧ ds' = ds) ∨
       (¬ |1 / |rp.amount| - 1| ≤ 1 / 10 ^ 14 ∧
        ∃ ex, mapE (fun e => scaleExchange M e (1 / |rp.amount|)) ds.exchanges = .ok ex ∧
          ds' = { ds with exchanges := ex })) := by
  unfold normalize at h
  obtain ⟨rp, hrp, h⟩ := bind_eq_ok.mp h
  refine ⟨rp, getSingle_ok.mp hrp, ?_⟩
  by_cases h0 : rp.amount = 0
  · simp [h0] at h
  refine ⟨h0, ?_⟩
  simp only [h0, if_false, normEpsilon, epure, gt_iff_lt] at h
  by_cases hf : |1 / |rp.amount| - 1| ≤ 1 / 10 ^ 14
  · left
    rw [if_neg (not_lt.mpr hf)] at h
    exact ⟨hf, (Except.ok.inj h).symm⟩
  · right
    rw [if_pos (not_le.mp hf)] at h
    obtain ⟨ex, h1, h2⟩ := bind_eq_ok.mp h
    exact ⟨hf, ex, h1, (Except.ok.inj h2).symm⟩

theorem normalize_of_close {M : MathEnv} {ds : Dataset} {rp : Exchange} (h : refs ds = [rp])
    (h0 : rp.amount ≠ 0) (hc : |1 / |rp.amount| - 1| ≤ 1 / 10 ^ 14) : normalize M ds = .ok ds := by
  unfold normalize
  rw [getSingle_ok.mpr h]
  simp only [ebind_ok, h0, if_false, normEpsilon, epure, gt_iff_lt]
  rw [if_neg (not_lt.mpr hc)]

theorem normalize_scaled {M : MathEnv} {ds ds' : Dataset} (h : normalize M ds = .ok ds') :
    ∃ rp n, refs ds = [rp] ∧ rp.amount ≠ 0 ∧ 0 < n ∧ NormFactor rp.amount n ∧
      ds' = { ds with exchanges := ds'.exchanges } ∧
      List.Forall₂ (ScaledBy n) ds.exchanges ds'.exchanges ∧
      (n = 1 → ds' = ds) ∧
      mapE (fun e => scaleExchange M e n) ds.exchanges = .ok ds'.exchanges := by
  obtain ⟨rp, h1, h0, ⟨hc, rfl⟩ | ⟨hc, ex, h2, rfl⟩⟩ := normalize_inv h
  · refine ⟨rp, 1, h1, h0, one_pos, Or.inr ⟨rfl, hc⟩, rfl, forall₂_scaled_refl _, fun _ => rfl, ?_⟩
    rw [mapE_congr (g := fun e => .ok e)]
    · rw [mapE_pure (fun e => e)]; simp
    · intro e _; simp [scaleExchange, NumObj.scale]
  · have hp : 0 < |rp.amount| := abs_pos.mpr h0
    have hn : 1 / |rp.amount| * |rp.amount| = 1 := by field_simp
    refine ⟨rp, 1 / |rp.amount|, h1, h0, by positivity, Or.inl hn, rfl, forall₂_mapE_scale h2, ?_, h2⟩
    intro hone
    exfalso
    apply hc
    rw [hone]; norm_num

end Ocelot
