import Verif.Model.FormulaText
import Verif.Proofs.ListLemmas
import Mathlib.Data.List.Infix

/-! # Lemmas about replacing text -/

namespace Ocelot

theorem replaceGo_skip (pat rep : Text) (k : ℕ) (s : Text) : replaceGo pat rep k s = replaceGo pat rep 0 (s.drop k) := by
  induction k generalizing s with
  | zero => rfl
  | succ k ih =>
    cases s with
    | nil => rfl
    | cons c s =>
      rw [List.drop_succ_cons, ← ih]
      conv_lhs => unfold replaceGo

theorem replaceAll_nil (pat rep : Text) : replaceAll pat rep [] = [] := by
  unfold replaceAll replaceGo
  rfl

/-- No occurrence of `pat` starts inside `a` in `a ++ s`. -/
def NoStart (pat a s : Text) : Prop := ∀ u, u ≠ [] → u <:+ a → ¬ pat <+: u ++ s

theorem NoStart.tail {pat a s : Text} {c : Char} (h : NoStart pat (c :: a) s) : NoStart pat a s :=
  fun u hu ha => h u hu (ha.trans (List.suffix_cons c a))

theorem replaceAll_skip {pat rep a s : Text} (h : NoStart pat a s) : replaceAll pat rep (a ++ s) = a ++ replaceAll pat rep s := by
  induction a with
  | nil => rfl
  | cons c a ih =>
    have h0 : ¬ pat.isPrefixOf (c :: (a ++ s)) = true := by
      rw [List.isPrefixOf_iff_prefix]
      exact h (c :: a) (by simp) (List.suffix_refl _)
    unfold replaceAll
    rw [List.cons_append]
    conv_lhs => unfold replaceGo
    rw [if_neg h0]
    congr 1
    exact ih h.tail

theorem replaceAll_hit {pat rep s : Text} (h : pat ≠ []) : replaceAll pat rep (pat ++ s) = rep ++ replaceAll pat rep s := by
  cases pat with
  | nil => exact absurd rfl h
  | cons c p =>
    have h0 : (c :: p).isPrefixOf (c :: (p ++ s)) = true := by
      rw [List.isPrefixOf_iff_prefix]
      exact ⟨s, rfl⟩
    unfold replaceAll
    rw [List.cons_append]
    conv_lhs => unfold replaceGo
    rw [if_pos h0, replaceGo_skip]
    congr 2
    simp

theorem replaceAll_none {pat rep s : Text} (h : ¬ pat <:+: s) : replaceAll pat rep s = s := by
  have h1 : NoStart pat s [] := by
    intro u _ hu hpre
    rw [List.append_nil] at hpre
    exact h (hpre.isInfix.trans hu.isInfix)
  have := replaceAll_skip (rep := rep) h1
  rw [List.append_nil, replaceAll_nil, List.append_nil] at this
  exact this

theorem count_replaceGo_le {pat rep : Text} {c : Char} (hp : pat ≠ []) (hr : rep.count c ≤ pat.count c) (s : Text) :
    ∀ k, (replaceGo pat rep k s).count c ≤ (s.drop k).count c := by
  induction s with
  | nil => intro k; simp [replaceGo]
  | cons x s ih =>
    intro k
    cases k with
    | succ k => rw [List.drop_succ_cons]; unfold replaceGo; exact ih k
    | zero =>
      rw [List.drop_zero]
      unfold replaceGo
      split
      · next h =>
        obtain ⟨y, hy⟩ := List.isPrefixOf_iff_prefix.mp h
        have hd : s.drop (pat.length - 1) = y := by
          have : (x :: s).drop pat.length = y := by rw [← hy]; simp
          cases pat with
          | nil => exact absurd rfl hp
          | cons a p => simpa using this
        have := ih (pat.length - 1)
        rw [hd] at this
        rw [← hy, List.count_append, List.count_append]
        omega
      · rw [List.count_cons, List.count_cons]
        have := ih 0
        rw [List.drop_zero] at this
        omega

theorem count_replaceAll_lt {pat rep s : Text} {c : Char} (hp : pat ≠ []) (hr : rep.count c < pat.count c) (h : pat <:+: s) :
    (replaceAll pat rep s).count c < s.count c := by
  unfold replaceAll
  induction s with
  | nil =>
    have := List.eq_nil_of_infix_nil h
    exact absurd this hp
  | cons x s ih =>
    unfold replaceGo
    split
    · next h =>
      obtain ⟨y, hy⟩ := List.isPrefixOf_iff_prefix.mp h
      have hd : s.drop (pat.length - 1) = y := by
        have : (x :: s).drop pat.length = y := by rw [← hy]; simp
        cases pat with
        | nil => exact absurd rfl hp
        | cons a p => simpa using this
      have := count_replaceGo_le hp hr.le s (pat.length - 1)
      rw [hd] at this
      rw [← hy, List.count_append, List.count_append]
      omega
    · next hn =>
      rcases List.infix_cons_iff.mp h with h | h
      · exact absurd (List.isPrefixOf_iff_prefix.mpr h) hn
      · have := ih h
        rw [List.count_cons, List.count_cons]
        omega

end Ocelot
