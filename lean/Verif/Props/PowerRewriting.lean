import Verif.Proofs.TextLemmas
import Verif.Props.IfRewriting

/-! # Property C78: rewriting `power(a;b)` -/

namespace Ocelot

namespace Spec

/-- What is known of `float`: numbers are read and written without brackets and semicolons, and are not empty. -/
def NumberText (num : Text → Option Text) : Prop :=
  ∀ s r, num s = some r → s ≠ [] ∧ ('(' ∉ s ∧ ')' ∉ s ∧ ';' ∉ s) ∧ ('(' ∉ r ∧ ')' ∉ r ∧ ';' ∉ r)

/-- A formula with powers: a list of (text before the power, base, exponent), then the remaining text. -/
def powersEcoinvent : List (Text × Text × Text) → Text → Text
  | [], tail => tail
  | (t, b, x) :: l, tail => t ++ ("power(".toList ++ b ++ ";".toList ++ x ++ ")".toList) ++ powersEcoinvent l tail

/-- The same formula in python. -/
def powersPython (num : Text → Option Text) : List (Text × Text × Text) → Text → Text
  | [], tail => tail
  | (t, b, x) :: l, tail => t ++ ("((".toList ++ (num b).getD [] ++ ")**(".toList ++ (num x).getD [] ++ "))".toList) ++ powersPython num l tail

end Spec

open Spec

/-! ## Termination -/

theorem takeWhile_ne_mem {c : Char} {s : Text} : c ∉ s.takeWhile (fun x => x != c) := by
  intro h
  induction s with
  | nil => cases h
  | cons a s ih =>
    by_cases ha : a = c
    · rw [List.takeWhile_cons_of_neg (by simp [ha])] at h
      cases h
    · rw [List.takeWhile_cons_of_pos (by simp [ha])] at h
      rcases List.mem_cons.mp h with rfl | h
      · exact ha rfl
      · exact ih h

theorem beforeLastParen_some {s : Text} (h : beforeLastParen s ≠ []) : ∃ y, s = beforeLastParen s ++ ')' :: y ∧ ')' ∉ y := by
  unfold beforeLastParen at h ⊢
  have h1 := List.takeWhile_append_dropWhile (p := fun c => c != ')') (l := s.reverse)
  cases hd : s.reverse.dropWhile (fun c => c != ')') with
  | nil => rw [hd] at h; exact absurd rfl h
  | cons a l =>
    have ha : a = ')' := by
      have := List.head?_dropWhile_not (p := fun c => c != ')') (l := s.reverse)
      rw [hd] at this
      simpa using this
    refine ⟨(s.reverse.takeWhile fun c => c != ')').reverse, ?_, ?_⟩
    · rw [hd, ha] at h1
      have := congrArg List.reverse h1
      rw [List.reverse_reverse] at this
      rw [ha]
      simp at this ⊢
      exact this.symm
    · intro hm
      exact takeWhile_ne_mem (List.mem_reverse.mp hm)

theorem beforeLastParen_eq {x y : Text} (hy : ')' ∉ y) : beforeLastParen (x ++ ')' :: y) = x := by
  unfold beforeLastParen
  have : (x ++ ')' :: y).reverse = y.reverse ++ (')' :: x.reverse) := by simp
  rw [this, List.dropWhile_append_of_pos]
  · simp
  · intro c hc
    simp only [bne_iff_ne, ne_eq]
    rintro rfl
    exact hy (List.mem_reverse.mp hc)

theorem powerMatch_some {s : Text} {m : Text × Text} (h : powerMatch s = some m) :
    (m.1 ≠ [] ∧ m.2 ≠ []) ∧ (';' ∉ m.1 ∧ ';' ∉ m.2) ∧ powerText m <+: s := by
  unfold powerMatch at h
  split at h
  · next hp =>
    obtain ⟨y, hy⟩ := List.isPrefixOf_iff_prefix.mp hp
    split at h
    · cases h
    · next b r hb =>
      split at h
      · cases h
      · next hn =>
        push Not at hn
        cases h
        obtain ⟨h1, h2⟩ := splitSemicolon_some.mp hb
        obtain ⟨z, hz, -⟩ := beforeLastParen_some hn.2
        refine ⟨⟨hn.1, hn.2⟩, ⟨h2, ?_⟩, ?_⟩
        · intro hm
          apply takeWhile_ne_mem (c := ';') (s := r)
          rw [hz]
          simp [hm]
        · have hd : s.drop 6 = y := by rw [← hy]; rfl
          rw [hd] at h1
          have hr := List.takeWhile_append_dropWhile (p := fun c => c != ';') (l := r)
          refine ⟨z ++ r.dropWhile (fun c => c != ';'), ?_⟩
          simp only [powerText, List.append_assoc, List.cons_append, List.nil_append]
          rw [← hy, h1]
          congr 3
          rw [← hr]
          conv_rhs => rw [hz]
          simp
  · cases h

theorem powerSearch_some {s : Text} {m : Text × Text} (h : powerSearch s = some m) :
    (m.1 ≠ [] ∧ m.2 ≠ []) ∧ (';' ∉ m.1 ∧ ';' ∉ m.2) ∧ powerText m <:+: s := by
  induction s with
  | nil => cases h
  | cons c s ih =>
    unfold powerSearch at h
    split at h
    · next m' hm =>
      cases h
      obtain ⟨h1, h2, h3⟩ := powerMatch_some hm
      exact ⟨h1, h2, h3.isInfix⟩
    · obtain ⟨h1, h2, h3⟩ := ih h
      exact ⟨h1, h2, h3.trans (List.suffix_cons c s).isInfix⟩

theorem powerReplacement_count {num : Text → Option Text} (hn : NumberText num) {m : Text × Text} {r : Text}
    (h : powerReplacement num m = .ok r) : r.count ';' = 0 := by
  unfold powerReplacement at h
  split at h
  · next a b ha hb =>
    cases h
    have h1 := List.count_eq_zero.mpr (hn _ _ ha).2.2.2.2
    have h2 := List.count_eq_zero.mpr (hn _ _ hb).2.2.2.2
    simp [List.count_append, h1, h2]
  · cases h

theorem power_step_lt {num : Text → Option Text} (hn : NumberText num) {s r : Text} {m : Text × Text} (hs : powerSearch s = some m)
    (hr : powerReplacement num m = .ok r) : (replaceAll (powerText m) r s).count ';' < s.count ';' := by
  obtain ⟨-, h2, h3⟩ := powerSearch_some hs
  apply count_replaceAll_lt (by simp [powerText, powerBeginning]) ?_ h3
  rw [powerReplacement_count hn hr]
  simp [powerText, List.count_append]

theorem powerLoop_fuel {num : Text → Option Text} (hn : NumberText num) {s : Text} {n k : ℕ} (h1 : s.count ';' < n) (h2 : s.count ';' < k) :
    powerLoop num n s = powerLoop num k s := by
  induction n generalizing s k with
  | zero => omega
  | succ n ih =>
    cases k with
    | zero => omega
    | succ k =>
      unfold powerLoop
      rcases hs : powerSearch s with _ | m
      · rfl
      · simp only
        rcases hr : powerReplacement num m with e | r
        · rfl
        · have := power_step_lt hn hs hr
          exact ih (by omega) (by omega)

/-- C78: `find_power_clause` terminates on every text: its result satisfies the equation of the `while` loop (the loop
ends when no power is found, and otherwise goes on with the text in which all occurrences of the first one are replaced). -/
theorem C78_terminates {num : Text → Option Text} (hn : NumberText num) (s : Text) :
    rewritePowers num s =
      match powerSearch s with
      | none => .ok s
      | some m => (powerReplacement num m).bind fun r => rewritePowers num (replaceAll (powerText m) r s) := by
  unfold rewritePowers
  conv_lhs => unfold powerLoop
  rcases hs : powerSearch s with _ | m
  · rfl
  · simp only
    rcases hr : powerReplacement num m with e | r
    · rfl
    · have := power_step_lt hn hs hr
      exact powerLoop_fuel hn (by omega) (by omega)

/-! ## Finding the first power -/

theorem powerMatch_none {s : Text} (h : ¬ powerBeginning <+: s) : powerMatch s = none := by
  unfold powerMatch
  rw [if_neg]
  rw [List.isPrefixOf_iff_prefix]
  exact h

theorem powerSearch_skip {a s : Text} (h : NoStart powerBeginning a s) : powerSearch (a ++ s) = powerSearch s := by
  induction a with
  | nil => rfl
  | cons c a ih =>
    rw [List.cons_append]
    conv_lhs => unfold powerSearch
    rw [powerMatch_none (s := c :: (a ++ s)) (h (c :: a) (by simp) (List.suffix_refl _))]
    exact ih h.tail

theorem NoStart.of_prefix {pat pat' a s : Text} (hp : pat <+: pat') (h : NoStart pat a s) : NoStart pat' a s :=
  fun u hu ha hn => h u hu ha (hp.trans hn)

/-- `pat` at the beginning of `u ++ s` lies in `u` or goes beyond it. -/
theorem prefix_append_cases {pat u s : Text} (h : pat <+: u ++ s) : pat <+: u ∨ ∃ q, pat = u ++ q ∧ q <+: s := by
  rcases List.prefix_or_prefix_of_prefix h (List.prefix_append u s) with h1 | ⟨q, rfl⟩
  · exact Or.inl h1
  · exact Or.inr ⟨q, rfl, (List.prefix_append_right_inj u).mp h⟩

/-- Before a power, no other power can start that does not lie completely before it. -/
theorem noStart_power {a s : Text} (h : ¬ powerBeginning <:+: a) : NoStart powerBeginning a (powerBeginning ++ s) := by
  intro u hu ha hp
  rcases prefix_append_cases hp with h1 | ⟨q, h1, h2⟩
  · exact h (h1.isInfix.trans ha.isInfix)
  · have hq : q ≠ [] := by
      rintro rfl
      rw [List.append_nil] at h1
      exact h (h1 ▸ ha.isInfix)
    obtain ⟨y, hy⟩ := h2
    cases q with
    | nil => exact hq rfl
    | cons c q =>
      have hc : c = 'p' := by
        simp [powerBeginning] at hy
        exact hy.1
      subst hc
      unfold powerBeginning at h1
      rcases u with _ | ⟨u1, u⟩
      · exact hu rfl
      · have hm : 'p' ∈ ['o', 'w', 'e', 'r', '('] := by
          have := (List.cons.inj h1).2
          rw [this]
          simp
        revert hm
        decide

theorem sep_split {U V X pat Y : Text} {sep : Char} (hs : sep ∉ pat) (h : U ++ sep :: V = X ++ (pat ++ Y)) :
    (∃ Y', U = X ++ pat ++ Y' ∧ Y = Y' ++ sep :: V) ∨ (∃ X', X = U ++ sep :: X' ∧ V = X' ++ (pat ++ Y)) := by
  rw [← List.append_assoc] at h
  rcases List.append_eq_append_iff.mp h with ⟨Z, h1, h2⟩ | ⟨Z, h1, h2⟩
  · -- X ++ pat = U ++ Z, sep :: V = Z ++ Y
    cases Z with
    | nil =>
      simp at h1 h2
      exact Or.inl ⟨[], by simp [h1], by simp [h2]⟩
    | cons z Z =>
      simp only [List.cons_append, List.cons.injEq] at h2
      obtain ⟨rfl, h2⟩ := h2
      rcases List.append_eq_append_iff.mp h1 with ⟨W, h3, h4⟩ | ⟨W, h3, h4⟩
      · exfalso
        apply hs
        rw [h4]
        simp
      · cases W with
        | nil =>
          exfalso
          apply hs
          simp at h4
          rw [← h4]
          simp
        | cons w W =>
          simp only [List.cons_append, List.cons.injEq] at h4
          obtain ⟨rfl, h4⟩ := h4
          exact Or.inr ⟨W, h3, by rw [h2, h4, List.append_assoc]⟩
  · exact Or.inl ⟨Z, h1, h2⟩

/-- The letters of `power(`. -/
theorem powerBeginning_eq : powerBeginning = "power".toList ++ ['('] := rfl

theorem ok_append {a t : Text} (ht : '(' ∉ t) (h : ¬ powerBeginning <:+: a) : ¬ powerBeginning <:+: a ++ t := by
  induction t using List.reverseRecOn with
  | nil => simpa using h
  | append_singleton t c ih =>
    rw [← List.append_assoc]
    intro hc
    rcases List.infix_concat_iff.mp hc with h1 | h1
    · rw [powerBeginning_eq] at h1
      obtain ⟨y, hy⟩ := h1
      rw [← List.append_assoc] at hy
      have := (List.append_inj' hy rfl).2
      simp at this
      apply ht
      rw [this]
      simp
    · exact ih (fun hm => ht (by simp [hm])) h1

theorem ok_open {a : Text} (hs : ¬ "power".toList <:+ a) (h : ¬ powerBeginning <:+: a) : ¬ powerBeginning <:+: a ++ ['('] := by
  intro hc
  rcases List.infix_concat_iff.mp hc with h1 | h1
  · rw [powerBeginning_eq] at h1
    obtain ⟨y, hy⟩ := h1
    rw [← List.append_assoc] at hy
    exact hs ⟨y, (List.append_inj' hy rfl).1⟩
  · exact h h1

theorem suffix_power_append {d t : Text} (hd : d = [] ∨ ∃ d', d = d' ++ [')']) (ht : ¬ "power".toList <:+ t) : ¬ "power".toList <:+ d ++ t := by
  intro h
  rcases List.suffix_or_suffix_of_suffix h (List.suffix_append d t) with h1 | ⟨v, h1⟩
  · exact ht h1
  · rw [← h1] at h
    have hv : v <:+ d := (List.suffix_append_inj_of_length_eq (s₁ := t) (s₂ := t) rfl).mp h |>.1
    have hne : v ≠ [] := by
      rintro rfl
      exact ht ⟨[], by rw [← h1]; simp⟩
    rcases hd with rfl | ⟨d', rfl⟩
    · exact hne (List.eq_nil_of_suffix_nil hv)
    · have hmem : ')' ∈ v := by
        rcases List.suffix_concat_iff.mp hv with h0 | ⟨w, hw, -⟩
        · exact absurd h0 hne
        · rw [hw]; simp
      have : ')' ∈ "power".toList := by rw [← h1]; simp [hmem]
      revert this
      decide

theorem powerMatch_at {b x R : Text} (hb : b ≠ [] ∧ ';' ∉ b) (hx : x ≠ [] ∧ ';' ∉ x) (hR : ')' ∉ R.takeWhile fun c => c != ';') :
    powerMatch (powerText (b, x) ++ R) = some (b, x) := by
  have h0 : powerBeginning.isPrefixOf (powerText (b, x) ++ R) = true := by
    rw [List.isPrefixOf_iff_prefix]
    simp only [powerText, List.append_assoc]
    exact List.prefix_append _ _
  have h1 : (powerText (b, x) ++ R).drop 6 = b ++ ';' :: (x ++ ')' :: R) := by
    simp [powerText, powerBeginning]
  have h2 : splitSemicolon (b ++ ';' :: (x ++ ')' :: R)) = some (b, x ++ ')' :: R) := splitSemicolon_some.mpr ⟨rfl, hb.2⟩
  have h3 : (x ++ ')' :: R).takeWhile (fun c => c != ';') = x ++ ')' :: R.takeWhile (fun c => c != ';') := by
    rw [List.takeWhile_append_of_pos]
    · rw [List.takeWhile_cons_of_pos (by decide)]
    · intro c hc
      simp only [bne_iff_ne, ne_eq]
      rintro rfl
      exact hx.2 hc
  unfold powerMatch
  rw [if_pos h0, h1, h2]
  simp only
  rw [h3, beforeLastParen_eq hR, if_neg (by simp [hb.1, hx.1])]

theorem powerSearch_at {a b x R : Text} (ha : ¬ powerBeginning <:+: a) (hb : b ≠ [] ∧ ';' ∉ b) (hx : x ≠ [] ∧ ';' ∉ x)
    (hR : ')' ∉ R.takeWhile fun c => c != ';') : powerSearch (a ++ (powerText (b, x) ++ R)) = some (b, x) := by
  have h := powerMatch_at hb hx hR
  rw [powerSearch_skip]
  · have hc : powerText (b, x) ++ R = 'p' :: (['o', 'w', 'e', 'r', '('] ++ b ++ [';'] ++ x ++ [')'] ++ R) := by
      simp [powerText, powerBeginning]
    rw [hc] at h ⊢
    unfold powerSearch
    rw [h]
  · have : powerText (b, x) ++ R = powerBeginning ++ (b ++ [';'] ++ x ++ [')'] ++ R) := by simp [powerText]
    rw [this]
    exact noStart_power ha

/-! ## Formulas without other brackets -/

/-- What is required of the text before a power, and of its base and exponent. -/
def Spec.GoodPower (num : Text → Option Text) (p : Text × Text × Text) : Prop :=
  ('(' ∉ p.1 ∧ ')' ∉ p.1) ∧ ¬ "power".toList <:+ p.1 ∧ (∃ r, num p.2.1 = some r) ∧ ∃ r, num p.2.2 = some r

theorem powersEcoinvent_cons (t b x : Text) (l : List (Text × Text × Text)) (tail : Text) :
    powersEcoinvent ((t, b, x) :: l) tail = t ++ (powerText (b, x) ++ powersEcoinvent l tail) := by
  simp [powersEcoinvent, powerText, powerBeginning]

theorem powerText_absent {num : Text → Option Text} (hn : NumberText num) {m : Text × Text} (hm : (')' ∉ m.2) ∧ ';' ∉ m.1)
    {l : List (Text × Text × Text)} (hl : ∀ p ∈ l, GoodPower num p) {tail : Text} (ht : '(' ∉ tail) (hnot : m ∉ l.map (·.2)) :
    ¬ powerText m <:+: powersEcoinvent l tail := by
  induction l with
  | nil =>
    rintro ⟨X, Y, h⟩
    apply ht
    rw [powersEcoinvent] at h
    rw [← h]
    simp [powerText, powerBeginning]
  | cons p l ih =>
    obtain ⟨t, b, x⟩ := p
    obtain ⟨⟨g1, g2⟩, g3, ⟨rb, hb⟩, ⟨rx, hx⟩⟩ := hl (t, b, x) (by simp)
    obtain ⟨b0, ⟨b1, b2, b3⟩, -⟩ := hn _ _ hb
    obtain ⟨x0, ⟨x1, x2, x3⟩, -⟩ := hn _ _ hx
    simp only at b0 b1 b2 b3 x0 x1 x2 x3 g1 g2
    rintro ⟨X, Y, h⟩
    have h1 : (t ++ "power".toList) ++ '(' :: (b ++ [';'] ++ x ++ ')' :: powersEcoinvent l tail) =
        X ++ ("power".toList ++ ('(' :: (m.1 ++ [';'] ++ m.2 ++ [')'] ++ Y))) := by
      rw [powersEcoinvent_cons] at h
      have e1 : "power".toList = ['p', 'o', 'w', 'e', 'r'] := rfl
      rw [e1]
      simp [powerText, powerBeginning] at h ⊢
      exact h.symm
    rcases sep_split (by decide) h1 with ⟨Y', h2, h3⟩ | ⟨X', h2, h3⟩
    · have : Y' = [] := by
        cases Y' with
        | nil => rfl
        | cons y Y' =>
          exfalso
          have : y = '(' := by simp at h3; exact h3.1.symm
          subst this
          have hmem : '(' ∈ t ++ "power".toList := by rw [h2]; simp
          rcases List.mem_append.mp hmem with hmem | hmem
          · exact g1 hmem
          · revert hmem; decide
      subst this
      simp only [List.nil_append, List.cons.injEq, true_and] at h3
      -- the same base and exponent
      have hs1 : splitSemicolon (b ++ ';' :: (x ++ ')' :: powersEcoinvent l tail)) = some (b, x ++ ')' :: powersEcoinvent l tail) :=
        splitSemicolon_some.mpr ⟨rfl, b3⟩
      have hs2 : splitSemicolon (m.1 ++ ';' :: (m.2 ++ ')' :: Y)) = some (m.1, m.2 ++ ')' :: Y) := splitSemicolon_some.mpr ⟨rfl, hm.2⟩
      have he : b ++ ';' :: (x ++ ')' :: powersEcoinvent l tail) = m.1 ++ ';' :: (m.2 ++ ')' :: Y) := by simpa using h3.symm
      rw [he, hs2] at hs1
      have := Option.some.inj hs1
      have e1 : m.1 = b := congrArg Prod.fst this
      have e2 : m.2 ++ ')' :: Y = x ++ ')' :: powersEcoinvent l tail := congrArg Prod.snd this
      have e3 : m.2 = x := by
        rcases List.append_eq_append_iff.mp e2 with ⟨Z, h5, h6⟩ | ⟨Z, h5, h6⟩
        · cases Z with
          | nil => simpa using h5.symm
          | cons z Z =>
            simp at h6
            exfalso; apply x2; rw [h5, ← h6.1]; simp
        · cases Z with
          | nil => simpa using h5
          | cons z Z =>
            simp at h6
            exfalso; apply hm.1; rw [h5, ← h6.1]; simp
      apply hnot
      simp only [List.map_cons, List.mem_cons]
      left
      rw [← e1, ← e3]
    · have h4 : (b ++ [';'] ++ x) ++ ')' :: powersEcoinvent l tail = X' ++ (powerText m ++ Y) := by
        rw [h3]
        simp [powerText, powerBeginning]
      have h5 : (b ++ [';'] ++ x) ++ ')' :: powersEcoinvent l tail = X' ++ (powerBeginning ++ (m.1 ++ [';'] ++ m.2 ++ [')'] ++ Y)) := by
        rw [h4]; simp [powerText]
      rcases sep_split (by decide) h5 with ⟨Y', h6, -⟩ | ⟨X2, -, h6⟩
      · have : '(' ∈ b ++ [';'] ++ x := by rw [h6]; simp [powerBeginning]
        simp [b1, x1] at this
      · apply ih (fun p hp => hl p (by simp [hp])) (fun hx => hnot (by simp only [List.map_cons, List.mem_cons]; right; exact hx))
        exact ⟨X2, Y, by rw [h6]; simp [powerText]⟩

theorem paren_later {num : Text → Option Text} (hn : NumberText num) {l : List (Text × Text × Text)} (hl : ∀ p ∈ l, GoodPower num p)
    {tail : Text} (ht : ')' ∉ tail) : ')' ∉ (powersEcoinvent l tail).takeWhile fun c => c != ';' := by
  cases l with
  | nil => exact fun h => ht ((List.takeWhile_prefix _).subset h)
  | cons p l =>
    obtain ⟨t, b, x⟩ := p
    obtain ⟨⟨g1, g2⟩, g3, ⟨rb, hb⟩, -⟩ := hl (t, b, x) (by simp)
    obtain ⟨b0, ⟨b1, b2, b3⟩, -⟩ := hn _ _ hb
    simp only at b2 g2
    have he : powersEcoinvent ((t, b, x) :: l) tail = (t ++ powerBeginning ++ b) ++ ';' :: (x ++ [')'] ++ powersEcoinvent l tail) := by
      rw [powersEcoinvent_cons]; simp [powerText]
    rw [he]
    intro h
    have hsub : ∀ (A B : Text), ')' ∈ (A ++ ';' :: B).takeWhile (fun c => c != ';') → ')' ∈ A := by
      intro A B
      induction A with
      | nil => intro h; simp at h
      | cons a A ih =>
        intro h
        rw [List.cons_append] at h
        by_cases ha : a = ';'
        · rw [List.takeWhile_cons_of_neg (by simp [ha])] at h
          cases h
        · rw [List.takeWhile_cons_of_pos (by simp [ha])] at h
          rcases List.mem_cons.mp h with h | h
          · exact List.mem_cons.mpr (Or.inl h)
          · simp [ih h]
    have := hsub _ _ h
    simp [g2, b2, powerBeginning] at this

theorem powers_go {num : Text → Option Text} (hn : NumberText num) {l : List (Text × Text × Text)} (hl : ∀ p ∈ l, GoodPower num p)
    (hnd : (l.map (·.2)).Nodup) {tail : Text} (ht : '(' ∉ tail ∧ ')' ∉ tail) {d : Text} (hd : d = [] ∨ ∃ d', d = d' ++ [')'])
    (hok : ¬ powerBeginning <:+: d) : rewritePowers num (d ++ powersEcoinvent l tail) = .ok (d ++ powersPython num l tail) := by
  induction l generalizing d with
  | nil =>
    rw [C78_terminates hn]
    have hnone : powerSearch (d ++ tail) = none := by
      have h2 := ok_append ht.1 hok
      have h3 : NoStart powerBeginning (d ++ tail) [] := by
        intro u _ hu hp
        rw [List.append_nil] at hp
        exact h2 (hp.isInfix.trans hu.isInfix)
      have := powerSearch_skip h3
      rw [List.append_nil] at this
      rw [this]
      rfl
    simp only [powersEcoinvent, powersPython, hnone]
  | cons p l ih =>
    obtain ⟨t, b, x⟩ := p
    obtain ⟨⟨g1, g2⟩, g3, ⟨rb, hb⟩, ⟨rx, hx⟩⟩ := hl (t, b, x) (by simp)
    obtain ⟨b0, ⟨b1, b2, b3⟩, ⟨b4, b5, b6⟩⟩ := hn _ _ hb
    obtain ⟨x0, ⟨x1, x2, x3⟩, ⟨x4, x5, x6⟩⟩ := hn _ _ hx
    simp only at b0 b1 b2 b3 x0 x1 x2 x3 g1 g2 g3 hb hx
    have hl' : ∀ p ∈ l, GoodPower num p := fun p hp => hl p (by simp [hp])
    rw [List.map_cons, List.nodup_cons] at hnd
    have hdt := ok_append g1 hok
    have hsrc : d ++ powersEcoinvent ((t, b, x) :: l) tail = (d ++ t) ++ (powerText (b, x) ++ powersEcoinvent l tail) := by
      rw [powersEcoinvent_cons]; simp
    rw [hsrc, C78_terminates hn, powerSearch_at hdt ⟨b0, b3⟩ ⟨x0, x3⟩ (paren_later hn hl' ht.2)]
    simp only
    have hrep : powerReplacement num (b, x) = .ok (['(', '('] ++ rb ++ [')', '*', '*', '('] ++ rx ++ [')', ')']) := by
      unfold powerReplacement
      simp only [hb, hx]
    rw [hrep]
    simp only [Except.bind]
    have hstart : NoStart (powerText (b, x)) (d ++ t) (powerText (b, x) ++ powersEcoinvent l tail) := by
      have h1 : powerText (b, x) ++ powersEcoinvent l tail = powerBeginning ++ (b ++ [';'] ++ x ++ [')'] ++ powersEcoinvent l tail) := by simp [powerText]
      rw [h1]
      exact (noStart_power hdt).of_prefix ⟨b ++ [';'] ++ x ++ [')'], by simp [powerText]⟩
    rw [replaceAll_skip hstart, replaceAll_hit (by simp [powerText, powerBeginning]),
      replaceAll_none (powerText_absent hn ⟨x2, b3⟩ hl' ht.1 hnd.1)]
    have hrec := ih hl' hnd.2 (d := (d ++ t) ++ (['(', '('] ++ rb ++ [')', '*', '*', '('] ++ rx ++ [')', ')']))
      (Or.inr ⟨(d ++ t) ++ (['(', '('] ++ rb ++ [')', '*', '*', '('] ++ rx ++ [')']), by simp⟩) (by
        have s1 := ok_open (suffix_power_append hd g3) hdt
        have s2 : ¬ powerBeginning <:+: (d ++ t ++ ['(']) ++ ['('] := ok_open (by
          intro h
          obtain ⟨y, hy⟩ := h
          have e : y ++ "power".toList = (y ++ "powe".toList) ++ ['r'] := by simp
          rw [e] at hy
          have := (List.append_inj' hy rfl).2
          simp at this) s1
        have s3 := ok_append (t := rb ++ [')', '*', '*']) (by simp [b4]) s2
        have s4 : ¬ powerBeginning <:+: (((d ++ t ++ ['(']) ++ ['(']) ++ (rb ++ [')', '*', '*'])) ++ ['('] := ok_open (by
          intro h
          obtain ⟨y, hy⟩ := h
          have e : y ++ "power".toList = (y ++ "powe".toList) ++ ['r'] := by simp
          have e' : d ++ t ++ ['('] ++ ['('] ++ (rb ++ [')', '*', '*']) = (d ++ t ++ ['('] ++ ['('] ++ (rb ++ [')', '*'])) ++ ['*'] := by simp
          rw [e, e'] at hy
          have := (List.append_inj' hy rfl).2
          simp at this) s3
        have s5 := ok_append (t := rx ++ [')', ')']) (by simp [x4]) s4
        simpa using s5)
    have e1 : (d ++ t) ++ ((['(', '('] ++ rb ++ [')', '*', '*', '('] ++ rx ++ [')', ')']) ++ powersEcoinvent l tail) =
        (d ++ t) ++ (['(', '('] ++ rb ++ [')', '*', '*', '('] ++ rx ++ [')', ')']) ++ powersEcoinvent l tail := by simp
    rw [e1, hrec]
    simp [powersPython, hb, hx]

/-- C78 (partial): in a formula whose only brackets are those of powers of numbers, and in which no power occurs twice, every
power is replaced by the python power of the same numbers. -/
theorem C78_powers_partial {num : Text → Option Text} (hn : NumberText num) (l : List (Text × Text × Text)) (tail : Text)
    (hl : ∀ p ∈ l, GoodPower num p) (hnd : (l.map (·.2)).Nodup) (ht : '(' ∉ tail ∧ ')' ∉ tail) :
    rewritePowers num (powersEcoinvent l tail) = .ok (powersPython num l tail) := by
  have := powers_go hn hl hnd ht (d := []) (Or.inl rfl) (by
    intro h
    have := List.eq_nil_of_infix_nil h
    exact absurd this (by decide))
  simpa using this

/-- C78 is false of formulas with other brackets: if any bracket closes after the first power (before the next semicolon),
the exponent is taken to extend to that bracket, it is not a number, and the whole run stops with a `ValueError`. -/
theorem C78_bracket_crash {num : Text → Option Text} (hn : NumberText num) (P b x Q R : Text) (hP : ¬ "power(".toList <:+: P)
    (hb : b ≠ [] ∧ ';' ∉ b) (hx : ';' ∉ x) (hQ : ';' ∉ Q) (hR : ')' ∉ R.takeWhile fun c => c != ';') :
    rewritePowers num (P ++ ("power(".toList ++ b ++ ";".toList ++ x ++ ")".toList) ++ Q ++ ")".toList ++ R) = .error .valueError := by
  have hs : P ++ ("power(".toList ++ b ++ ";".toList ++ x ++ ")".toList) ++ Q ++ ")".toList ++ R =
      P ++ (powerText (b, x ++ [')'] ++ Q) ++ R) := by
    simp [powerText, powerBeginning]
  have hse := powerSearch_at (R := R) (x := x ++ [')'] ++ Q) hP hb ⟨by simp, by simp [hx, hQ]⟩ hR
  rw [hs, C78_terminates hn, hse]
  simp only
  have hnone : num (x ++ [')'] ++ Q) = none := by
    rcases h : num (x ++ [')'] ++ Q) with _ | r
    · rfl
    · exact absurd (by simp) (hn _ _ h).2.1.2.1
  have : powerReplacement num (b, x ++ [')'] ++ Q) = .error .valueError := by
    unfold powerReplacement
    simp only [hnone]
    split
    · next h => cases h
    · rfl
  rw [this]
  rfl

/-! ### Examples -/

/-- Decimal digits, written as python does. -/
def Spec.digits (s : Text) : Option Text := if s ≠ [] ∧ s.all (fun c => decide ('0' ≤ c) && decide (c ≤ '9')) then some (s ++ ['.', '0']) else none

theorem digits_numberText : NumberText digits := by
  intro s r h
  unfold digits at h
  split at h
  · next hs =>
    cases h
    have h1 : ∀ c : Char, ¬ (decide ('0' ≤ c) && decide (c ≤ '9')) = true → c ∉ s := by
      intro c hc hm
      exact hc (List.all_eq_true.mp hs.2 c hm)
    have a1 := h1 '(' (by decide)
    have a2 := h1 ')' (by decide)
    have a3 := h1 ';' (by decide)
    exact ⟨hs.1, ⟨a1, a2, a3⟩, by simp [a1], by simp [a2], by simp [a3]⟩
  · cases h

example : rewritePowers digits "2*power(2;3)+power(4;5)/x".toList = .ok "2*((2.0)**(3.0))+((4.0)**(5.0))/x".toList :=
  C78_powers_partial digits_numberText [("2*".toList, "2".toList, "3".toList), ("+".toList, "4".toList, "5".toList)] "/x".toList
    (by simp [GoodPower, digits]; decide) (by decide) (by decide)

example : rewritePowers digits "power(2;3)*(x+1)".toList = .error .valueError :=
  C78_bracket_crash digits_numberText [] "2".toList "3".toList "*(x+1".toList [] (by decide) (by decide) (by decide) (by decide) (by decide)

/-- C78 is also false if a power occurs twice with another one in between: the brackets of the first replacement end up after the second power. -/
theorem C78_repeated_crash : rewritePowers digits "power(2;3)+power(4;5)+power(2;3)".toList = .error .valueError := by
  decide +kernel

end Ocelot
