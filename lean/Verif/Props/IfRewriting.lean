import Verif.Model.FormulaText
import Verif.Proofs.ListLemmas

/-! # Property C55: rewriting `if(a;b;c)` -/

set_option linter.unusedSimpArgs false

namespace Ocelot

/-! ## Specification -/

namespace Spec

/-- Formulas with conditionals, of any depth. A formula is a sequence of characters, bracketed formulas and conditionals. -/
inductive IfTree where
  | done
  | chr (c : Char) (rest : IfTree)
  | paren (inner rest : IfTree)
  | cond (c t f rest : IfTree)
  deriving DecidableEq

/-- The formula as it is written in ecoinvent. -/
def IfTree.ecoinvent : IfTree → Text
  | .done => []
  | .chr c r => c :: r.ecoinvent
  | .paren i r => '(' :: (i.ecoinvent ++ ')' :: r.ecoinvent)
  | .cond c t f r => 'i' :: 'f' :: '(' :: (c.ecoinvent ++ ';' :: (t.ecoinvent ++ ';' :: (f.ecoinvent ++ ')' :: r.ecoinvent)))

/-- The formula as it is written in python; a conditional with equal alternatives is just one of them. -/
def IfTree.python (ws : Char → Bool) : IfTree → Text
  | .done => []
  | .chr c r => c :: r.python ws
  | .paren i r => '(' :: (i.python ws ++ ')' :: r.python ws)
  | .cond c t f r =>
    (if t.python ws = f.python ws then "(".toList ++ strip ws (t.python ws) ++ ")".toList
      else "((".toList ++ t.python ws ++ ") if (".toList ++ c.python ws ++ ") else (".toList ++ f.python ws ++ "))".toList) ++ r.python ws

/-- The text that was just read (in reverse) ends with `if`. -/
def EndsIf (pre : Text) : Prop := ∃ p, pre = 'f' :: 'i' :: p

/-- Ordinary characters. -/
def Plain (c : Char) : Prop := c ≠ '(' ∧ c ≠ ')' ∧ c ≠ ';' ∧ c ≠ '\\' ∧ c ≠ '\n'

/-- A proper formula: characters are ordinary (in particular, semicolons only separate the parts of a conditional), no
name that ends with `if` stands before a bracket, and the parts of a conditional are not empty. `pre` is the text before it, in reverse. -/
def IfTree.Proper : Text → IfTree → Prop
  | _, .done => True
  | pre, .chr c r => Plain c ∧ r.Proper (c :: pre)
  | pre, .paren i r => ¬ EndsIf pre ∧ i.Proper [] ∧ r.Proper []
  | pre, .cond c t f r => ¬ EndsIf pre ∧ (c ≠ .done ∧ t ≠ .done ∧ f ≠ .done) ∧ c.Proper [] ∧ t.Proper [] ∧ f.Proper [] ∧ r.Proper []

end Spec

open Spec

/-! ## Termination -/

theorem splitSemicolon_some {s a b : Text} : splitSemicolon s = some (a, b) ↔ s = a ++ ';' :: b ∧ ';' ∉ a := by
  induction s generalizing a with
  | nil => simp [splitSemicolon]
  | cons c s ih =>
    unfold splitSemicolon
    by_cases hc : c = ';'
    · rw [if_pos hc]
      constructor
      · intro h
        cases h
        exact ⟨by rw [hc]; rfl, by simp⟩
      · rintro ⟨h1, h2⟩
        cases a with
        | nil => simp at h1; rw [h1.2]
        | cons x a =>
          simp at h1
          exact absurd (by rw [← h1.1, hc]; simp) h2
    · rw [if_neg hc, Option.map_eq_some_iff]
      constructor
      · rintro ⟨⟨x, y⟩, hxy, h⟩
        cases h
        obtain ⟨h1, h2⟩ := ih.mp hxy
        refine ⟨by rw [h1]; rfl, ?_⟩
        simp only [List.mem_cons, not_or]
        exact ⟨fun h => hc h.symm, h2⟩
      · rintro ⟨h1, h2⟩
        cases a with
        | nil => simp at h1; exact absurd h1.1 hc
        | cons x a =>
          simp at h1
          refine ⟨(a, b), ih.mpr ⟨h1.2, fun h => h2 (by simp [h])⟩, by rw [h1.1]⟩

theorem completeIf_some {s c t f : Text} : completeIf s = some (c, t, f) ↔
    s = 'i' :: 'f' :: '(' :: (c ++ ';' :: (t ++ ';' :: (f ++ [')']))) ∧ ';' ∉ c ∧ ';' ∉ t ∧ c ≠ [] ∧ t ≠ [] ∧ f ≠ [] ∧ '\n' ∉ f := by
  unfold completeIf
  constructor
  · intro h
    split at h
    · next hs =>
      rw [Bool.and_eq_true, List.isPrefixOf_iff_prefix] at hs
      obtain ⟨⟨y, rfl⟩, hl⟩ := hs
      simp only [ifBeginning, List.cons_append, List.nil_append, beq_iff_eq] at hl h ⊢
      rw [List.drop_succ_cons, List.drop_succ_cons, List.drop_succ_cons, List.drop_zero] at h
      split at h
      · cases h
      · next a r ha =>
        split at h
        · cases h
        · next t' f' ht =>
          split at h
          · cases h
          · next hn =>
            cases h
            obtain ⟨h1, h2⟩ := splitSemicolon_some.mp ha
            obtain ⟨h3, h4⟩ := splitSemicolon_some.mp ht
            push Not at hn
            refine ⟨?_, h2, h4, hn.1, hn.2.1, hn.2.2.1, hn.2.2.2⟩
            have hy : y ≠ [] := by
              rintro rfl
              simp at h1
            have hlast : y.getLast hy = ')' := by
              rw [List.getLast?_cons_cons, List.getLast?_cons_cons] at hl
              obtain ⟨z, zs, rfl⟩ := List.exists_cons_of_ne_nil hy
              rw [List.getLast?_cons_cons, List.getLast?_eq_some_getLast (by simp)] at hl
              exact Option.some.inj hl
            have := List.dropLast_append_getLast hy
            rw [hlast, h1, h3] at this
            rw [← this]
            simp
    · cases h
  · rintro ⟨rfl, h1, h2, h3, h4, h5, h6⟩
    have hp : ifBeginning.isPrefixOf ('i' :: 'f' :: '(' :: (c ++ ';' :: (t ++ ';' :: (f ++ [')'])))) = true := by
      simp [ifBeginning, List.isPrefixOf]
    have hl : ('i' :: 'f' :: '(' :: (c ++ ';' :: (t ++ ';' :: (f ++ [')'])))).getLast? = some ')' := by
      have : ('i' :: 'f' :: '(' :: (c ++ ';' :: (t ++ ';' :: (f ++ [')'])))) = ('i' :: 'f' :: '(' :: (c ++ ';' :: (t ++ ';' :: f))) ++ [')'] := by simp
      rw [this, List.getLast?_append]
      rfl
    rw [hp, hl]
    have hd : (('i' :: 'f' :: '(' :: (c ++ ';' :: (t ++ ';' :: (f ++ [')'])))).drop 3).dropLast = c ++ ';' :: (t ++ ';' :: f) := by
      have : (('i' :: 'f' :: '(' :: (c ++ ';' :: (t ++ ';' :: (f ++ [')'])))).drop 3) = (c ++ ';' :: (t ++ ';' :: f)) ++ [')'] := by simp
      rw [this, List.dropLast_concat]
    rw [hd]
    have e1 : splitSemicolon (c ++ ';' :: (t ++ ';' :: f)) = some (c, t ++ ';' :: f) := splitSemicolon_some.mpr ⟨rfl, h1⟩
    have e2 : splitSemicolon (t ++ ';' :: f) = some (t, f) := splitSemicolon_some.mpr ⟨rfl, h2⟩
    simp only [e1, e2, h3, h4, h5, h6, or_self, if_false]
    rfl

theorem strip_count (ws : Char → Bool) (s : Text) (c : Char) : (strip ws s).count c ≤ s.count c := by
  unfold strip
  rw [List.count_reverse]
  refine ((List.dropWhile_sublist ws).count_le c).trans ?_
  rw [List.count_reverse]
  exact (List.dropWhile_sublist ws).count_le c

theorem pythonIf_count (ws : Char → Bool) (c t f : Text) : (pythonIf ws c t f).count ';' ≤ c.count ';' + t.count ';' + f.count ';' := by
  unfold pythonIf
  split
  · have := strip_count ws t ';'
    simp only [List.count_append]
    have h1 : List.count ';' ['('] = 0 := by decide
    have h2 : List.count ';' [')'] = 0 := by decide
    omega
  · simp only [List.count_append]
    have h1 : List.count ';' ['(', '('] = 0 := by decide
    have h2 : List.count ';' [')', ' ', 'i', 'f', ' ', '('] = 0 := by decide
    have h3 : List.count ';' [')', ' ', 'e', 'l', 's', 'e', ' ', '('] = 0 := by decide
    have h4 : List.count ';' [')', ')'] = 0 := by decide
    omega

theorem replaceIfStatement_count {ws : Char → Bool} {s r : Text} (h : replaceIfStatement ws s = .ok r) : r.count ';' + 2 ≤ s.count ';' := by
  unfold replaceIfStatement at h
  split at h
  · cases h
  · next c t f hc =>
    cases h
    obtain ⟨rfl, -⟩ := completeIf_some.mp hc
    have := pythonIf_count ws c t f
    simp only [List.count_cons, List.count_append, List.count_nil]
    simp
    omega

theorem ifTurn_count {ws : Char → Bool} {line line' : Text} (h : ifTurn ws line = .ok (some line')) : line'.count ';' < line.count ';' := by
  unfold ifTurn at h
  split at h
  · cases h
  · next ps _ =>
    split at h
    · cases h
    · next p _ =>
      rcases hr : replaceIfAt ws line p with e | r
      · rw [hr] at h; cases h
      · rw [hr] at h
        cases h
        unfold replaceIfAt at hr
        obtain ⟨r, hr', h⟩ := bind_eq_ok.mp hr
        cases h
        have hc := replaceIfStatement_count hr'
        have hl : line.count ';' = (line.take p.1).count ';' + (((line.drop p.1).take (p.2 + 1)).count ';' + (line.drop (p.1 + p.2 + 1)).count ';') := by
          rw [← List.count_append, ← List.count_append, Nat.add_assoc, ← List.drop_drop, List.take_append_drop, List.take_append_drop]
        simp only [List.count_append]
        omega

theorem ifLoop_fuel (ws : Char → Bool) (n m : ℕ) (line : Text) (hn : line.count ';' < n) (hm : line.count ';' < m) :
    ifLoop ws n line = ifLoop ws m line := by
  induction n generalizing m line with
  | zero => omega
  | succ n ih =>
    cases m with
    | zero => omega
    | succ m =>
      unfold ifLoop
      split
      · rfl
      · rfl
      · next l h =>
        have := ifTurn_count h
        exact ih m l (by omega) (by omega)

/-- C55: the loop terminates on every text: it satisfies the equation of the unbounded loop. -/
theorem C55_terminates (ws : Char → Bool) (line : Text) : rewriteIfs ws line =
    match ifTurn ws line with
    | .error e => .error e
    | .ok none => .ok line
    | .ok (some line') => rewriteIfs ws line' := by
  conv_lhs => unfold rewriteIfs ifLoop
  rcases h : ifTurn ws line with e | _ | l
  · rfl
  · rfl
  · have := ifTurn_count h
    exact ifLoop_fuel ws _ _ l (by omega) (by omega)

theorem firstShortest_none {l : List (ℕ × ℕ)} (h : firstShortest l = none) : l = [] := by
  cases l with
  | nil => rfl
  | cons p l =>
    unfold firstShortest at h
    split at h
    · cases h
    · split at h <;> cases h

theorem mem_ifStarts {line : Text} {i : ℕ} : i ∈ ifStarts line ↔ ∃ y, line.drop i = 'i' :: 'f' :: '(' :: y := by
  unfold ifStarts
  rw [List.mem_filter, List.mem_range, List.isPrefixOf_iff_prefix]
  constructor
  · rintro ⟨-, y, h⟩
    exact ⟨y, h.symm⟩
  · rintro ⟨y, h⟩
    refine ⟨?_, y, h.symm⟩
    by_contra hlt
    rw [List.drop_eq_nil_of_le (by omega)] at h
    cases h

/-- C55: if the result is a text, it contains no `if(`. -/
theorem C55_none_left {ws : Char → Bool} {line r : Text} (h : rewriteIfs ws line = .ok r) : ¬ "if(".toList <:+: r := by
  generalize hn : line.count ';' = n
  induction n using Nat.strong_induction_on generalizing line with
  | _ n ih =>
    rw [C55_terminates] at h
    rcases ht : ifTurn ws line with e | _ | l
    · rw [ht] at h; cases h
    · rw [ht] at h
      have := Except.ok.inj h
      subst this
      unfold ifTurn at ht
      split at ht
      · cases ht
      · next ps hps =>
        split at ht
        · next hf =>
          have h0 := firstShortest_none hf
          subst h0
          have hF := mapE_ok_iff.mp hps
          have hs : ifStarts line = [] := by
            cases hk : ifStarts line with
            | nil => rfl
            | cons a l => rw [hk] at hF; cases hF
          rintro ⟨a, b, rfl⟩
          have : a.length ∈ ifStarts (a ++ "if(".toList ++ b) := by
            rw [mem_ifStarts]
            exact ⟨b, by simp⟩
          rw [hs] at this
          cases this
        · next p _ =>
          rcases hr : replaceIfAt ws line p with e | x
          · rw [hr] at ht; cases ht
          · rw [hr] at ht; cases ht
    · rw [ht] at h
      exact ih (l.count ';') (by rw [← hn]; exact ifTurn_count ht) h rfl

/-! ## Trees -/

/-- No conditional. -/
def Spec.IfTree.condFree : IfTree → Prop
  | .done => True
  | .chr _ r => r.condFree
  | .paren i r => i.condFree ∧ r.condFree
  | .cond _ _ _ _ => False

/-- Number of conditionals. -/
def Spec.IfTree.size : IfTree → ℕ
  | .done => 0
  | .chr _ r => r.size
  | .paren i r => i.size + r.size
  | .cond c t f r => c.size + t.size + f.size + r.size + 1

/-- `e` has a conditional with parts `c`, `t`, `f` between the texts `A` and `B`; `plug g` is `e` with `g` in its place. -/
inductive At : IfTree → Text → IfTree → IfTree → IfTree → Text → ((IfTree → IfTree) → IfTree) → Prop where
  | here (c t f r) : At (.cond c t f r) [] c t f r.ecoinvent (fun g => g r)
  | chr {e A c t f B plug} (x : Char) : At e A c t f B plug → At (.chr x e) (x :: A) c t f B (fun g => .chr x (plug g))
  | parenIn {e A c t f B plug} (r) : At e A c t f B plug → At (.paren e r) ('(' :: A) c t f (B ++ ')' :: r.ecoinvent) (fun g => .paren (plug g) r)
  | parenRest {e A c t f B plug} (i) : At e A c t f B plug → At (.paren i e) ('(' :: (i.ecoinvent ++ ')' :: A)) c t f B (fun g => .paren i (plug g))
  | condC {e A c t f B plug} (t' f' r) : At e A c t f B plug →
      At (.cond e t' f' r) ('i' :: 'f' :: '(' :: A) c t f (B ++ ';' :: (t'.ecoinvent ++ ';' :: (f'.ecoinvent ++ ')' :: r.ecoinvent))) (fun g => .cond (plug g) t' f' r)
  | condT {e A c t f B plug} (c' f' r) : At e A c t f B plug →
      At (.cond c' e f' r) ('i' :: 'f' :: '(' :: (c'.ecoinvent ++ ';' :: A)) c t f (B ++ ';' :: (f'.ecoinvent ++ ')' :: r.ecoinvent)) (fun g => .cond c' (plug g) f' r)
  | condF {e A c t f B plug} (c' t' r) : At e A c t f B plug →
      At (.cond c' t' e r) ('i' :: 'f' :: '(' :: (c'.ecoinvent ++ ';' :: (t'.ecoinvent ++ ';' :: A))) c t f (B ++ ')' :: r.ecoinvent) (fun g => .cond c' t' (plug g) r)
  | condRest {e A c t f B plug} (c' t' f') : At e A c t f B plug →
      At (.cond c' t' f' e) ('i' :: 'f' :: '(' :: (c'.ecoinvent ++ ';' :: (t'.ecoinvent ++ ';' :: (f'.ecoinvent ++ ')' :: A)))) c t f B (fun g => .cond c' t' f' (plug g))

/-- The text of one conditional. -/
def condText (c t f : IfTree) : Text := 'i' :: 'f' :: '(' :: (c.ecoinvent ++ ';' :: (t.ecoinvent ++ ';' :: (f.ecoinvent ++ [')'])))

theorem At.plug_cond {e A c t f B plug} (h : At e A c t f B plug) : plug (.cond c t f) = e := by
  induction h with
  | here => rfl
  | chr x _ ih => simp only [ih]
  | parenIn r _ ih => simp only [ih]
  | parenRest i _ ih => simp only [ih]
  | condC _ _ _ _ ih => simp only [ih]
  | condT _ _ _ _ ih => simp only [ih]
  | condF _ _ _ _ ih => simp only [ih]
  | condRest _ _ _ _ ih => simp only [ih]

theorem At.text {e A c t f B plug} (h : At e A c t f B plug) {g : IfTree → IfTree} {s : Text} (hg : ∀ r, (g r).ecoinvent = s ++ r.ecoinvent) :
    (plug g).ecoinvent = A ++ s ++ B := by
  induction h with
  | here => simp [hg]
  | chr x _ ih => simp [IfTree.ecoinvent, ih]
  | parenIn r _ ih => simp [IfTree.ecoinvent, ih]
  | parenRest i _ ih => simp [IfTree.ecoinvent, ih]
  | condC _ _ _ _ ih => simp [IfTree.ecoinvent, ih]
  | condT _ _ _ _ ih => simp [IfTree.ecoinvent, ih]
  | condF _ _ _ _ ih => simp [IfTree.ecoinvent, ih]
  | condRest _ _ _ _ ih => simp [IfTree.ecoinvent, ih]

theorem At.ecoinvent_eq {e A c t f B plug} (h : At e A c t f B plug) : e.ecoinvent = A ++ condText c t f ++ B := by
  rw [← h.plug_cond]
  exact h.text (fun r => by simp [IfTree.ecoinvent, condText])

theorem At.python_eq {ws : Char → Bool} {e A c t f B plug} (h : At e A c t f B plug) {g : IfTree → IfTree}
    (hg : ∀ r, (g r).python ws = (IfTree.cond c t f r).python ws) : (plug g).python ws = e.python ws := by
  induction h with
  | here => exact hg _
  | chr x _ ih => simp only [IfTree.python, ih hg]
  | parenIn r _ ih => simp only [IfTree.python, ih hg]
  | parenRest i _ ih => simp only [IfTree.python, ih hg]
  | condC _ _ _ _ ih => simp only [IfTree.python, ih hg]
  | condT _ _ _ _ ih => simp only [IfTree.python, ih hg]
  | condF _ _ _ _ ih => simp only [IfTree.python, ih hg]
  | condRest _ _ _ _ ih => simp only [IfTree.python, ih hg]

theorem At.size_lt {e A c t f B plug} (h : At e A c t f B plug) {g : IfTree → IfTree}
    (hg : ∀ r, (g r).size < (IfTree.cond c t f r).size) : (plug g).size < e.size := by
  induction h with
  | here => exact hg _
  | chr x _ ih => simp only [IfTree.size]; exact ih hg
  | parenIn r _ ih => have := ih hg; simp only [IfTree.size]; omega
  | parenRest i _ ih => have := ih hg; simp only [IfTree.size]; omega
  | condC _ _ _ _ ih => have := ih hg; simp only [IfTree.size]; omega
  | condT _ _ _ _ ih => have := ih hg; simp only [IfTree.size]; omega
  | condF _ _ _ _ ih => have := ih hg; simp only [IfTree.size]; omega
  | condRest _ _ _ _ ih => have := ih hg; simp only [IfTree.size]; omega

theorem At.plug_ne {e A c t f B plug} (h : At e A c t f B plug) {g : IfTree → IfTree} (hg : ∀ r, g r ≠ .done) : plug g ≠ .done := by
  cases h <;> simp [hg]

theorem At.proper {e A c t f B plug} (h : At e A c t f B plug) {g : IfTree → IfTree} (hne : ∀ r, g r ≠ .done)
    (hg : ∀ pre r, (IfTree.cond c t f r).Proper pre → (g r).Proper pre) {pre : Text} (hp : e.Proper pre) : (plug g).Proper pre := by
  induction h generalizing pre with
  | here => exact hg _ _ hp
  | chr x _ ih => exact ⟨hp.1, ih hg hp.2⟩
  | parenIn r _ ih => exact ⟨hp.1, ih hg hp.2.1, hp.2.2⟩
  | parenRest i _ ih => exact ⟨hp.1, hp.2.1, ih hg hp.2.2⟩
  | condC _ _ _ h ih => exact ⟨hp.1, ⟨h.plug_ne hne, hp.2.1.2⟩, ih hg hp.2.2.1, hp.2.2.2⟩
  | condT _ _ _ h ih => exact ⟨hp.1, ⟨hp.2.1.1, h.plug_ne hne, hp.2.1.2.2⟩, hp.2.2.1, ih hg hp.2.2.2.1, hp.2.2.2.2⟩
  | condF _ _ _ h ih => exact ⟨hp.1, ⟨hp.2.1.1, hp.2.1.2.1, h.plug_ne hne⟩, hp.2.2.1, hp.2.2.2.1, ih hg hp.2.2.2.2.1, hp.2.2.2.2.2⟩
  | condRest _ _ _ _ ih => exact ⟨hp.1, hp.2.1, hp.2.2.1, hp.2.2.2.1, hp.2.2.2.2.1, ih hg hp.2.2.2.2.2⟩

theorem At.parts_proper {e A c t f B plug} (h : At e A c t f B plug) {pre : Text} (hp : e.Proper pre) :
    (c ≠ .done ∧ t ≠ .done ∧ f ≠ .done) ∧ c.Proper [] ∧ t.Proper [] ∧ f.Proper [] := by
  induction h generalizing pre with
  | here => exact ⟨hp.2.1, hp.2.2.1, hp.2.2.2.1, hp.2.2.2.2.1⟩
  | chr x _ ih => exact ih hp.2
  | parenIn r _ ih => exact ih hp.2.1
  | parenRest i _ ih => exact ih hp.2.2
  | condC _ _ _ h ih => exact ih hp.2.2.1
  | condT _ _ _ h ih => exact ih hp.2.2.2.1
  | condF _ _ _ h ih => exact ih hp.2.2.2.2.1
  | condRest _ _ _ _ ih => exact ih hp.2.2.2.2.2

theorem exists_at {e : IfTree} (h : ¬ e.condFree) : ∃ A c t f B plug, At e A c t f B plug := by
  induction e with
  | done => exact absurd trivial h
  | chr x r ih =>
    obtain ⟨A, c, t, f, B, plug, ha⟩ := ih h
    exact ⟨_, _, _, _, _, _, ha.chr x⟩
  | paren i r ih1 ih2 =>
    by_cases hi : i.condFree
    · have hr : ¬ r.condFree := fun hr => h ⟨hi, hr⟩
      obtain ⟨A, c, t, f, B, plug, ha⟩ := ih2 hr
      exact ⟨_, _, _, _, _, _, ha.parenRest i⟩
    · obtain ⟨A, c, t, f, B, plug, ha⟩ := ih1 hi
      exact ⟨_, _, _, _, _, _, ha.parenIn r⟩
  | cond c t f r => exact ⟨_, _, _, _, _, _, At.here c t f r⟩

/-- A conditional inside a part of a conditional. -/
theorem At.nested {e A c t f B plug} (h : At e A c t f B plug) {A' c' t' f' B' plug'}
    (h' : At c A' c' t' f' B' plug' ∨ At t A' c' t' f' B' plug' ∨ At f A' c' t' f' B' plug') :
    ∃ A'' B'' plug'', At e A'' c' t' f' B'' plug'' := by
  induction h with
  | here =>
    rcases h' with h' | h' | h'
    · exact ⟨_, _, _, h'.condC _ _ _⟩
    · exact ⟨_, _, _, h'.condT _ _ _⟩
    · exact ⟨_, _, _, h'.condF _ _ _⟩
  | chr x _ ih => obtain ⟨_, _, _, h⟩ := ih h'; exact ⟨_, _, _, h.chr x⟩
  | parenIn r _ ih => obtain ⟨_, _, _, h⟩ := ih h'; exact ⟨_, _, _, h.parenIn r⟩
  | parenRest i _ ih => obtain ⟨_, _, _, h⟩ := ih h'; exact ⟨_, _, _, h.parenRest i⟩
  | condC _ _ _ _ ih => obtain ⟨_, _, _, h⟩ := ih h'; exact ⟨_, _, _, h.condC _ _ _⟩
  | condT _ _ _ _ ih => obtain ⟨_, _, _, h⟩ := ih h'; exact ⟨_, _, _, h.condT _ _ _⟩
  | condF _ _ _ _ ih => obtain ⟨_, _, _, h⟩ := ih h'; exact ⟨_, _, _, h.condF _ _ _⟩
  | condRest _ _ _ _ ih => obtain ⟨_, _, _, h⟩ := ih h'; exact ⟨_, _, _, h.condRest _ _ _⟩

/-! ### Occurrences of `if(` -/

theorem if_split {U V X Y : Text} {sep : Char} (hs : sep ≠ 'i' ∧ sep ≠ 'f' ∧ sep ≠ '(')
    (h : U ++ sep :: V = X ++ 'i' :: 'f' :: '(' :: Y) :
    (∃ Y', U = X ++ 'i' :: 'f' :: '(' :: Y') ∨ (∃ X', X = U ++ sep :: X' ∧ V = X' ++ 'i' :: 'f' :: '(' :: Y) := by
  induction U generalizing X with
  | nil =>
    cases X with
    | nil => simp at h; exact absurd h.1 hs.1
    | cons x X =>
      simp at h
      right
      exact ⟨X, by rw [← h.1]; rfl, h.2⟩
  | cons u U ih =>
    cases X with
    | nil =>
      simp at h
      obtain ⟨rfl, h⟩ := h
      cases U with
      | nil => simp at h; exact absurd h.1 hs.2.1
      | cons u2 U =>
        simp at h
        obtain ⟨rfl, h⟩ := h
        cases U with
        | nil => simp at h; exact absurd h.1 hs.2.2
        | cons u3 U =>
          simp at h
          obtain ⟨rfl, h⟩ := h
          exact Or.inl ⟨U, rfl⟩
    | cons x X =>
      simp at h
      obtain ⟨rfl, h⟩ := h
      rcases ih h with ⟨Y', rfl⟩ | ⟨X', rfl, hV⟩
      · exact Or.inl ⟨Y', rfl⟩
      · exact Or.inr ⟨X', rfl, hV⟩

theorem at_of_if {e : IfTree} {pre X Y : Text} (hp : e.Proper pre) (h : e.ecoinvent = X ++ 'i' :: 'f' :: '(' :: Y) :
    ∃ c t f B plug, At e X c t f B plug := by
  induction e generalizing pre X Y with
  | done => simp [IfTree.ecoinvent] at h
  | chr x r ih =>
    cases X with
    | nil =>
      simp [IfTree.ecoinvent] at h
      obtain ⟨rfl, h⟩ := h
      cases r with
      | done => simp [IfTree.ecoinvent] at h
      | chr y r =>
        simp [IfTree.ecoinvent] at h
        obtain ⟨rfl, h⟩ := h
        cases r with
        | done => simp [IfTree.ecoinvent] at h
        | chr z r =>
          simp [IfTree.ecoinvent] at h
          exact absurd h.1 hp.2.2.1.1
        | paren i r => exact absurd ⟨pre, rfl⟩ hp.2.2.1
        | cond c t f r => simp [IfTree.ecoinvent] at h
      | paren i r => simp [IfTree.ecoinvent] at h
      | cond c t f r => simp [IfTree.ecoinvent] at h
    | cons a X =>
      simp [IfTree.ecoinvent] at h
      obtain ⟨rfl, h⟩ := h
      obtain ⟨c, t, f, B, plug, ha⟩ := ih hp.2 h
      exact ⟨c, t, f, B, _, ha.chr _⟩
  | paren i r ih1 ih2 =>
    cases X with
    | nil => simp [IfTree.ecoinvent] at h
    | cons a X =>
      simp [IfTree.ecoinvent] at h
      obtain ⟨rfl, h⟩ := h
      rcases if_split (by decide) h with ⟨Y', h1⟩ | ⟨X', rfl, h1⟩
      · obtain ⟨c, t, f, B, plug, ha⟩ := ih1 hp.2.1 h1
        exact ⟨c, t, f, _, _, ha.parenIn r⟩
      · obtain ⟨c, t, f, B, plug, ha⟩ := ih2 hp.2.2 h1
        exact ⟨c, t, f, _, _, ha.parenRest i⟩
  | cond c t f r ih1 ih2 ih3 ih4 =>
    cases X with
    | nil => exact ⟨c, t, f, _, _, At.here c t f r⟩
    | cons a X =>
      simp [IfTree.ecoinvent] at h
      obtain ⟨rfl, h⟩ := h
      cases X with
      | nil => simp at h
      | cons a X =>
        simp at h
        obtain ⟨rfl, h⟩ := h
        cases X with
        | nil => simp at h
        | cons a X =>
          simp at h
          obtain ⟨rfl, h⟩ := h
          rcases if_split (by decide) h with ⟨Y', h1⟩ | ⟨X', rfl, h1⟩
          · obtain ⟨_, _, _, _, _, ha⟩ := ih1 hp.2.2.1 h1
            exact ⟨_, _, _, _, _, ha.condC _ _ _⟩
          rcases if_split (by decide) h1 with ⟨Y', h2⟩ | ⟨X', rfl, h2⟩
          · obtain ⟨_, _, _, _, _, ha⟩ := ih2 hp.2.2.2.1 h2
            exact ⟨_, _, _, _, _, ha.condT _ _ _⟩
          rcases if_split (by decide) h2 with ⟨Y', h3⟩ | ⟨X', rfl, h3⟩
          · obtain ⟨_, _, _, _, _, ha⟩ := ih3 hp.2.2.2.2.1 h3
            exact ⟨_, _, _, _, _, ha.condF _ _ _⟩
          · obtain ⟨_, _, _, _, _, ha⟩ := ih4 hp.2.2.2.2.2 h3
            exact ⟨_, _, _, _, _, ha.condRest _ _ _⟩

/-! ### Matching brackets -/

theorem boundaryGo_skip {prev x : Char} {pos : ℕ} {stack : List ℕ} {s : Text} (hx : x ≠ '(' ∧ x ≠ ')') :
    boundaryGo prev pos stack (x :: s) = boundaryGo x (pos + 1) stack s := by
  conv_lhs => unfold boundaryGo
  rw [if_neg hx.1, if_neg hx.2]
  split <;> rfl

theorem boundaryGo_open {prev : Char} {pos : ℕ} {stack : List ℕ} {s : Text} (hx : prev ≠ '\\') :
    boundaryGo prev pos stack ('(' :: s) = boundaryGo '(' (pos + 1) ((pos + 1) :: stack) s := by
  conv_lhs => unfold boundaryGo
  rw [if_neg hx, if_pos rfl]

theorem boundaryGo_close {prev : Char} {pos p q : ℕ} {stack : List ℕ} {s : Text} (hx : prev ≠ '\\') :
    boundaryGo prev pos (p :: q :: stack) (')' :: s) = boundaryGo ')' (pos + 1) (q :: stack) s := by
  conv_lhs => unfold boundaryGo
  rw [if_neg hx, if_neg (by decide), if_pos rfl]

theorem boundaryGo_last {prev : Char} {pos p : ℕ} {s : Text} (hx : prev ≠ '\\') :
    boundaryGo prev pos [p] (')' :: s) = .ok (p, pos) := by
  conv_lhs => unfold boundaryGo
  rw [if_neg hx, if_neg (by decide), if_pos rfl]

theorem boundaryGo_tree {e : IfTree} {pre : Text} (hp : e.Proper pre) {prev : Char} (hprev : prev ≠ '\\') (pos q : ℕ) (stack : List ℕ) (s : Text) :
    ∃ prev', prev' ≠ '\\' ∧ boundaryGo prev pos (q :: stack) (e.ecoinvent ++ s) = boundaryGo prev' (pos + e.ecoinvent.length) (q :: stack) s := by
  induction e generalizing pre prev pos q stack s with
  | done => exact ⟨prev, hprev, rfl⟩
  | chr x r ih =>
    obtain ⟨p', h1, h2⟩ := ih hp.2 hp.1.2.2.2.1 (pos + 1) q stack s
    refine ⟨p', h1, ?_⟩
    simp only [IfTree.ecoinvent, List.cons_append, List.length_cons]
    rw [boundaryGo_skip ⟨hp.1.1, hp.1.2.1⟩, h2]
    congr 1
    omega
  | paren i r ih1 ih2 =>
    obtain ⟨p1, h1, e1⟩ := ih1 hp.2.1 (prev := '(') (by decide) (pos + 1) (pos + 1) (q :: stack) (')' :: (r.ecoinvent ++ s))
    obtain ⟨p2, h2, e2⟩ := ih2 hp.2.2 (prev := ')') (by decide) (pos + 1 + i.ecoinvent.length + 1) q stack s
    refine ⟨p2, h2, ?_⟩
    simp only [IfTree.ecoinvent, List.cons_append, List.append_assoc, List.length_cons, List.length_append]
    rw [boundaryGo_open hprev, e1, boundaryGo_close h1, e2]
    congr 1
    omega
  | cond c t f r ih1 ih2 ih3 ih4 =>
    obtain ⟨p1, h1, e1⟩ := ih1 hp.2.2.1 (prev := '(') (by decide) (pos + 3) (pos + 3) (q :: stack) (';' :: (t.ecoinvent ++ ';' :: (f.ecoinvent ++ ')' :: (r.ecoinvent ++ s))))
    obtain ⟨p2, h2, e2⟩ := ih2 hp.2.2.2.1 (prev := ';') (by decide) (pos + 3 + c.ecoinvent.length + 1) (pos + 3) (q :: stack) (';' :: (f.ecoinvent ++ ')' :: (r.ecoinvent ++ s)))
    obtain ⟨p3, h3, e3⟩ := ih3 hp.2.2.2.2.1 (prev := ';') (by decide) (pos + 3 + c.ecoinvent.length + 1 + t.ecoinvent.length + 1) (pos + 3) (q :: stack) (')' :: (r.ecoinvent ++ s))
    obtain ⟨p4, h4, e4⟩ := ih4 hp.2.2.2.2.2 (prev := ')') (by decide) (pos + 3 + c.ecoinvent.length + 1 + t.ecoinvent.length + 1 + f.ecoinvent.length + 1) q stack s
    refine ⟨p4, h4, ?_⟩
    simp only [IfTree.ecoinvent, List.cons_append, List.append_assoc, List.length_cons, List.length_append]
    rw [boundaryGo_skip (by decide), boundaryGo_skip (by decide), boundaryGo_open (by decide), e1, boundaryGo_skip (by decide), e2,
      boundaryGo_skip (by decide), e3, boundaryGo_close h3, e4]
    congr 1
    omega

theorem findIfBoundaries_cond {c t f : IfTree} (hc : c.Proper []) (ht : t.Proper []) (hf : f.Proper []) (B : Text) :
    findIfBoundaries (condText c t f ++ B) = .ok (3, (condText c t f).length - 1) := by
  unfold findIfBoundaries
  generalize (condText c t f ++ B).getLast?.getD ' ' = prev
  unfold condText
  obtain ⟨p1, h1, e1⟩ := boundaryGo_tree hc (prev := '(') (by decide) 3 3 [] (';' :: (t.ecoinvent ++ ';' :: (f.ecoinvent ++ ')' :: B)))
  obtain ⟨p2, h2, e2⟩ := boundaryGo_tree ht (prev := ';') (by decide) (3 + c.ecoinvent.length + 1) 3 [] (';' :: (f.ecoinvent ++ ')' :: B))
  obtain ⟨p3, h3, e3⟩ := boundaryGo_tree hf (prev := ';') (by decide) (3 + c.ecoinvent.length + 1 + t.ecoinvent.length + 1) 3 [] (')' :: B)
  simp only [List.cons_append, List.append_assoc, List.nil_append]
  rw [boundaryGo_skip (by decide), boundaryGo_skip (by decide), boundaryGo_open (by decide), e1, boundaryGo_skip (by decide), e2,
      boundaryGo_skip (by decide), e3, boundaryGo_last h3]
  congr 2
  simp
  omega

/-! ### The python conditional as a formula without conditionals -/

/-- Remove whitespace at the beginning. -/
def stripLeft (ws : Char → Bool) : IfTree → IfTree
  | .chr c r => if ws c then stripLeft ws r else .chr c r
  | e => e

/-- Remove whitespace at the end. -/
def stripRight (ws : Char → Bool) : IfTree → IfTree
  | .done => .done
  | .chr c r => if stripRight ws r = .done ∧ ws c then .done else .chr c (stripRight ws r)
  | .paren i r => .paren i (stripRight ws r)
  | .cond c t f r => .cond c t f (stripRight ws r)

theorem ecoinvent_nil {e : IfTree} : e.ecoinvent = [] ↔ e = .done := by
  cases e <;> simp [IfTree.ecoinvent]

theorem stripLeft_text {ws : Char → Bool} (hw : ws '(' = false) {e : IfTree} (he : e.condFree) :
    (stripLeft ws e).ecoinvent = e.ecoinvent.dropWhile ws := by
  induction e with
  | done => rfl
  | chr c r ih =>
    unfold stripLeft
    by_cases h : ws c = true
    · rw [if_pos h, ih he]
      simp [IfTree.ecoinvent, h]
    · rw [if_neg h]
      simp [IfTree.ecoinvent, h]
  | paren i r => simp [stripLeft, IfTree.ecoinvent, hw]
  | cond c t f r => exact he.elim

/-- Remove from the end while `ws` holds. -/
def dropEnd (ws : Char → Bool) (s : Text) : Text := (s.reverse.dropWhile ws).reverse

theorem dropEnd_cons (ws : Char → Bool) (x : Char) (s : Text) :
    dropEnd ws (x :: s) = if dropEnd ws s = [] ∧ ws x then [] else x :: dropEnd ws s := by
  unfold dropEnd
  rw [List.reverse_cons, List.dropWhile_append]
  by_cases h : s.reverse.dropWhile ws = []
  · rw [h]
    by_cases hx : ws x = true
    · simp [hx]
    · simp [hx]
  · have : (s.reverse.dropWhile ws).isEmpty = false := by simp [List.isEmpty_iff, h]
    rw [this]
    simp [h]

theorem dropEnd_append_ne {ws : Char → Bool} {a s : Text} (h : dropEnd ws s ≠ []) : dropEnd ws (a ++ s) = a ++ dropEnd ws s := by
  induction a with
  | nil => rfl
  | cons x a ih =>
    rw [List.cons_append, dropEnd_cons, ih, if_neg (by simp [h])]
    rfl

theorem stripRight_text {ws : Char → Bool} (hw : ws ')' = false) {e : IfTree} (he : e.condFree) :
    (stripRight ws e).ecoinvent = dropEnd ws e.ecoinvent := by
  induction e with
  | done => rfl
  | chr c r ih =>
    unfold stripRight
    rw [IfTree.ecoinvent, dropEnd_cons, ← ih he]
    simp only [ecoinvent_nil]
    split <;> rfl
  | paren i r ih1 ih2 =>
    have hr := ih2 he.2
    have hne : dropEnd ws (')' :: r.ecoinvent) = ')' :: dropEnd ws r.ecoinvent := by
      rw [dropEnd_cons, if_neg (by simp [hw])]
    unfold stripRight
    simp only [IfTree.ecoinvent]
    rw [show '(' :: (i.ecoinvent ++ ')' :: r.ecoinvent) = ('(' :: i.ecoinvent) ++ (')' :: r.ecoinvent) by simp,
      dropEnd_append_ne (by rw [hne]; simp), hne, hr]
    simp
  | cond c t f r => exact he.elim

theorem stripLeft_condFree {ws : Char → Bool} {e : IfTree} (he : e.condFree) : (stripLeft ws e).condFree := by
  induction e with
  | done => trivial
  | chr c r ih => unfold stripLeft; split; exact ih he; exact he
  | paren i r => exact he
  | cond c t f r => exact he.elim

theorem stripRight_condFree {ws : Char → Bool} {e : IfTree} (he : e.condFree) : (stripRight ws e).condFree := by
  induction e with
  | done => trivial
  | chr c r ih => unfold stripRight; split; trivial; exact ih he
  | paren i r ih1 ih2 => exact ⟨he.1, ih2 he.2⟩
  | cond c t f r => exact he.elim

theorem Proper.mono {e : IfTree} {pre pre' : Text} (h : e.Proper pre) (hp : pre' <+: pre) : e.Proper pre' := by
  have hif : ∀ {a b : Text}, a <+: b → EndsIf a → EndsIf b := by
    rintro a b ⟨y, rfl⟩ ⟨p, rfl⟩
    exact ⟨p ++ y, rfl⟩
  induction e generalizing pre pre' with
  | done => trivial
  | chr c r ih => exact ⟨h.1, ih h.2 (by simpa using hp)⟩
  | paren i r => exact ⟨fun hn => h.1 (hif hp hn), h.2⟩
  | cond c t f r => exact ⟨fun hn => h.1 (hif hp hn), h.2⟩

theorem stripLeft_proper {ws : Char → Bool} {e : IfTree} (h : e.Proper []) : (stripLeft ws e).Proper [] := by
  induction e with
  | done => trivial
  | chr c r ih => unfold stripLeft; split; exact ih (Proper.mono h.2 (by simp)); exact h
  | paren i r => exact h
  | cond c t f r => exact h

theorem stripRight_proper {ws : Char → Bool} {e : IfTree} {pre : Text} (h : e.Proper pre) : (stripRight ws e).Proper pre := by
  induction e generalizing pre with
  | done => trivial
  | chr c r ih => unfold stripRight; split; trivial; exact ⟨h.1, ih h.2⟩
  | paren i r ih1 ih2 => exact ⟨h.1, h.2.1, ih2 h.2.2⟩
  | cond c t f r ih1 ih2 ih3 ih4 => exact ⟨h.1, h.2.1, h.2.2.1, h.2.2.2.1, h.2.2.2.2.1, ih4 h.2.2.2.2.2⟩

/-- The python conditional. -/
def pythonNode (ws : Char → Bool) (c t f r : IfTree) : IfTree :=
  if t.ecoinvent = f.ecoinvent then .paren (stripRight ws (stripLeft ws t)) r
  else .paren (.paren t (.chr ' ' (.chr 'i' (.chr 'f' (.chr ' ' (.paren c (.chr ' ' (.chr 'e' (.chr 'l' (.chr 's' (.chr 'e' (.chr ' ' (.paren f .done))))))))))))) r

theorem condFree_python {ws : Char → Bool} {e : IfTree} (he : e.condFree) : e.python ws = e.ecoinvent := by
  induction e with
  | done => rfl
  | chr c r ih => simp only [IfTree.python, IfTree.ecoinvent, ih he]
  | paren i r ih1 ih2 => simp only [IfTree.python, IfTree.ecoinvent, ih1 he.1, ih2 he.2]
  | cond c t f r => exact he.elim

theorem condFree_size {e : IfTree} (he : e.condFree) : e.size = 0 := by
  induction e with
  | done => rfl
  | chr c r ih => exact ih he
  | paren i r ih1 ih2 => simp only [IfTree.size, ih1 he.1, ih2 he.2]
  | cond c t f r => exact he.elim

theorem pythonNode_text {ws : Char → Bool} (hw : ws '(' = false) (hw' : ws ')' = false) {c t f : IfTree} (ht : t.condFree) (r : IfTree) :
    (pythonNode ws c t f r).ecoinvent = pythonIf ws c.ecoinvent t.ecoinvent f.ecoinvent ++ r.ecoinvent := by
  unfold pythonNode pythonIf
  split
  · simp only [IfTree.ecoinvent]
    rw [stripRight_text hw' (stripLeft_condFree ht), stripLeft_text hw ht]
    simp [strip, dropEnd]
  · simp [IfTree.ecoinvent]

theorem pythonNode_python {ws : Char → Bool} (hw : ws '(' = false) (hw' : ws ')' = false) {c t f : IfTree} (hc : c.condFree) (ht : t.condFree)
    (hf : f.condFree) (r : IfTree) : (pythonNode ws c t f r).python ws = (IfTree.cond c t f r).python ws := by
  unfold pythonNode
  simp only [IfTree.python, condFree_python hc, condFree_python ht, condFree_python hf]
  split
  · simp only [IfTree.python]
    rw [condFree_python (stripRight_condFree (stripLeft_condFree ht)), stripRight_text hw' (stripLeft_condFree ht), stripLeft_text hw ht]
    simp [strip, dropEnd]
  · simp [IfTree.python, condFree_python hc, condFree_python ht, condFree_python hf]

theorem pythonNode_size {ws : Char → Bool} {c t f : IfTree} (ht : t.condFree) (r : IfTree) : (pythonNode ws c t f r).size < (IfTree.cond c t f r).size := by
  unfold pythonNode
  split
  · simp only [IfTree.size, condFree_size (stripRight_condFree (stripLeft_condFree ht))]
    omega
  · simp only [IfTree.size]
    omega

theorem pythonNode_ne {ws : Char → Bool} {c t f : IfTree} (r : IfTree) : pythonNode ws c t f r ≠ .done := by
  unfold pythonNode
  split <;> simp

theorem pythonNode_proper {ws : Char → Bool} {c t f : IfTree} (pre : Text) (r : IfTree) (h : (IfTree.cond c t f r).Proper pre) :
    (pythonNode ws c t f r).Proper pre := by
  obtain ⟨h1, h2, h3, h4, h5, h6⟩ := h
  have hn : ∀ {l : Text}, l.head? ≠ some 'f' → ¬ EndsIf l := by
    rintro l hl ⟨p, rfl⟩
    exact hl rfl
  unfold pythonNode
  split
  · exact ⟨h1, stripRight_proper (stripLeft_proper h4), h6⟩
  · refine ⟨h1, ⟨hn (by simp), h4, ?_⟩, h6⟩
    refine ⟨by unfold Plain; decide, by unfold Plain; decide, by unfold Plain; decide, by unfold Plain; decide, hn (by simp), h3, ?_⟩
    exact ⟨by unfold Plain; decide, by unfold Plain; decide, by unfold Plain; decide, by unfold Plain; decide, by unfold Plain; decide, by unfold Plain; decide,
      hn (by simp), h5, trivial⟩

/-! ### One turn -/

theorem plain_text {e : IfTree} (he : e.condFree) {pre : Text} (hp : e.Proper pre) : ';' ∉ e.ecoinvent ∧ '\n' ∉ e.ecoinvent := by
  induction e generalizing pre with
  | done => simp [IfTree.ecoinvent]
  | chr c r ih =>
    obtain ⟨h1, h2⟩ := ih he hp.2
    simp only [IfTree.ecoinvent, List.mem_cons, not_or]
    exact ⟨⟨fun h => hp.1.2.2.1 h.symm, h1⟩, fun h => hp.1.2.2.2.2 h.symm, h2⟩
  | paren i r ih1 ih2 =>
    obtain ⟨h1, h2⟩ := ih1 he.1 hp.2.1
    obtain ⟨h3, h4⟩ := ih2 he.2 hp.2.2
    simp [IfTree.ecoinvent, h1, h2, h3, h4]
  | cond c t f r => exact he.elim

theorem firstShortest_some {l : List (ℕ × ℕ)} {p : ℕ × ℕ} (h : firstShortest l = some p) : p ∈ l ∧ ∀ q ∈ l, p.2 ≤ q.2 := by
  induction l generalizing p with
  | nil => cases h
  | cons a l ih =>
    unfold firstShortest at h
    split at h
    · next hn =>
      cases h
      have := firstShortest_none hn
      subst this
      simp
    · next q hq =>
      obtain ⟨h1, h2⟩ := ih hq
      split at h
      · next hlt =>
        cases h
        refine ⟨by simp [h1], ?_⟩
        intro x hx
        rcases List.mem_cons.mp hx with rfl | hx
        · omega
        · exact h2 x hx
      · next hlt =>
        cases h
        refine ⟨by simp, ?_⟩
        intro x hx
        rcases List.mem_cons.mp hx with rfl | hx
        · omega
        · have := h2 x hx
          omega

theorem at_length {e A c t f B plug} (h : At e A c t f B plug) : (condText c t f).length ≤ e.ecoinvent.length := by
  rw [h.ecoinvent_eq, List.length_append, List.length_append]
  omega

theorem ifMatch_at {e : IfTree} {pre : Text} (hp : e.Proper pre) {A c t f B plug} (h : At e A c t f B plug) :
    ifMatch e.ecoinvent A.length = .ok (A.length, (condText c t f).length - 1) := by
  unfold ifMatch
  obtain ⟨-, hc, ht, hf⟩ := h.parts_proper hp
  rw [h.ecoinvent_eq, List.append_assoc, List.drop_left, findIfBoundaries_cond hc ht hf]
  rfl

theorem start_at {e : IfTree} {pre : Text} (hp : e.Proper pre) {i : ℕ} (hi : i ∈ ifStarts e.ecoinvent) :
    ∃ A c t f B plug, At e A c t f B plug ∧ A.length = i := by
  obtain ⟨y, hy⟩ := mem_ifStarts.mp hi
  have hlen : i ≤ e.ecoinvent.length := by
    by_contra hlt
    rw [List.drop_eq_nil_of_le (by omega)] at hy
    cases hy
  have hsplit : e.ecoinvent = e.ecoinvent.take i ++ 'i' :: 'f' :: '(' :: y := by rw [← hy, List.take_append_drop]
  obtain ⟨c, t, f, B, plug, ha⟩ := at_of_if hp hsplit
  exact ⟨_, c, t, f, B, plug, ha, by simp [hlen]⟩

theorem at_start {e A c t f B plug} (h : At e A c t f B plug) : A.length ∈ ifStarts e.ecoinvent := by
  rw [mem_ifStarts, h.ecoinvent_eq, List.append_assoc, List.drop_left]
  exact ⟨_, rfl⟩

theorem ifTurn_tree {ws : Char → Bool} (hw : ws '(' = false) (hw' : ws ')' = false) {e : IfTree} {pre : Text} (hp : e.Proper pre) :
    (e.condFree ∧ ifTurn ws e.ecoinvent = .ok none) ∨
    ∃ e' : IfTree, e'.Proper pre ∧ e'.size < e.size ∧ e'.python ws = e.python ws ∧ ifTurn ws e.ecoinvent = .ok (some e'.ecoinvent) := by
  have hall : ∀ i ∈ ifStarts e.ecoinvent, ∃ b, ifMatch e.ecoinvent i = .ok b := by
    intro i hi
    obtain ⟨A, c, t, f, B, plug, ha, rfl⟩ := start_at hp hi
    exact ⟨_, ifMatch_at hp ha⟩
  obtain ⟨ps, hps⟩ := mapE_ok_of_forall hall
  have hF := mapE_ok_iff.mp hps
  cases hs : firstShortest ps with
  | none =>
    left
    have h0 := firstShortest_none hs
    subst h0
    constructor
    · by_contra hc
      obtain ⟨A, c, t, f, B, plug, ha⟩ := exists_at hc
      have := at_start ha
      cases hk : ifStarts e.ecoinvent with
      | nil => rw [hk] at this; cases this
      | cons a l => rw [hk] at hF; cases hF
    · unfold ifTurn
      simp only [hps, hs]
  | some p =>
    right
    obtain ⟨hm, hmin⟩ := firstShortest_some hs
    obtain ⟨i, hi, hip⟩ := forall₂_mem_right hF hm
    obtain ⟨A, c, t, f, B, plug, ha, rfl⟩ := start_at hp hi
    rw [ifMatch_at hp ha] at hip
    cases hip
    obtain ⟨hne, hpc, hpt, hpf⟩ := ha.parts_proper hp
    -- nothing inside is shorter
    have hinner : ∀ {A' c' t' f' B' plug'}, (At c A' c' t' f' B' plug' ∨ At t A' c' t' f' B' plug' ∨ At f A' c' t' f' B' plug') → False := by
      intro A' c' t' f' B' plug' h'
      obtain ⟨A2, B2, plug2, h2⟩ := ha.nested h'
      obtain ⟨q, hq, hq2⟩ := forall₂_mem_left hF (at_start h2)
      rw [ifMatch_at hp h2] at hq2
      have hq2 := Except.ok.inj hq2
      have := hmin q hq
      rw [← hq2] at this
      simp only at this
      have hlt : (condText c' t' f').length < (condText c t f).length := by
        have hcl : (condText c t f).length = c.ecoinvent.length + t.ecoinvent.length + f.ecoinvent.length + 6 := by
          simp [condText]
          omega
        rcases h' with h | h | h <;> have := at_length h <;> omega
      have hpos : 1 ≤ (condText c' t' f').length := by simp [condText]
      omega
    have hc : c.condFree := by
      by_contra h
      obtain ⟨_, _, _, _, _, _, h⟩ := exists_at h
      exact hinner (Or.inl h)
    have ht : t.condFree := by
      by_contra h
      obtain ⟨_, _, _, _, _, _, h⟩ := exists_at h
      exact hinner (Or.inr (Or.inl h))
    have hf : f.condFree := by
      by_contra h
      obtain ⟨_, _, _, _, _, _, h⟩ := exists_at h
      exact hinner (Or.inr (Or.inr h))
    refine ⟨plug (pythonNode ws c t f), ha.proper pythonNode_ne pythonNode_proper hp, ha.size_lt (pythonNode_size ht),
      ha.python_eq (pythonNode_python hw hw' hc ht hf), ?_⟩
    have hcomplete : completeIf (condText c t f) = some (c.ecoinvent, t.ecoinvent, f.ecoinvent) := by
      rw [completeIf_some]
      exact ⟨rfl, (plain_text hc hpc).1, (plain_text ht hpt).1, fun h => hne.1 (ecoinvent_nil.mp h), fun h => hne.2.1 (ecoinvent_nil.mp h),
        fun h => hne.2.2 (ecoinvent_nil.mp h), (plain_text hf hpf).2⟩
    have hpos : 1 ≤ (condText c t f).length := by simp [condText]
    unfold ifTurn
    simp only [hps, hs]
    unfold replaceIfAt
    simp only
    rw [ha.ecoinvent_eq, ha.text (pythonNode_text hw hw' ht)]
    have e1 : ((A ++ condText c t f ++ B).drop A.length).take ((condText c t f).length - 1 + 1) = condText c t f := by
      rw [List.append_assoc, List.drop_left, Nat.sub_add_cancel hpos, List.take_left]
    have e2 : (A ++ condText c t f ++ B).take A.length = A := by rw [List.append_assoc, List.take_left]
    have e3 : (A ++ condText c t f ++ B).drop (A.length + ((condText c t f).length - 1) + 1) = B := by
      rw [Nat.add_assoc, Nat.sub_add_cancel hpos, ← List.length_append, List.drop_left]
    rw [e1, e2, e3]
    unfold replaceIfStatement
    rw [hcomplete]
    rfl

/-- C55: on every proper formula, of any depth, the loop returns the python text of the same tree. -/
theorem C55_tree_partial {ws : Char → Bool} (hw : ws '(' = false) (hw' : ws ')' = false) (e : IfTree) (hp : e.Proper []) :
    rewriteIfs ws e.ecoinvent = .ok (e.python ws) := by
  generalize hn : e.size = n
  induction n using Nat.strong_induction_on generalizing e with
  | _ n ih =>
    rw [C55_terminates]
    rcases ifTurn_tree hw hw' hp with ⟨hc, ht⟩ | ⟨e', hp', hs, he, ht⟩
    · rw [ht, condFree_python hc]
    · rw [ht]
      simp only
      rw [ih e'.size (by omega) e' hp' rfl, he]


/-! ### Examples -/

/-- A text without brackets. -/
def Spec.IfTree.ofText : List Char → IfTree → IfTree
  | [], r => r
  | c :: s, r => .chr c (IfTree.ofText s r)

/-- `2*if(a>0;if(b;1;2);(x))` -/
def Spec.exampleTree : IfTree :=
  .ofText "2*".toList (.cond (.ofText "a>0".toList .done) (.cond (.ofText "b".toList .done) (.ofText "1".toList .done) (.ofText "2".toList .done) .done)
    (.paren (.ofText "x".toList .done) .done) .done)

example : exampleTree.ecoinvent = "2*if(a>0;if(b;1;2);(x))".toList := by decide +kernel

theorem exampleTree_proper : exampleTree.Proper [] := by
  simp [exampleTree, IfTree.ofText, IfTree.Proper, Plain, EndsIf]

example : rewriteIfs Char.isWhitespace "2*if(a>0;if(b;1;2);(x))".toList = .ok "2*((((1) if (b) else (2))) if (a>0) else ((x)))".toList := by
  have h := C55_tree_partial (ws := Char.isWhitespace) (by decide) (by decide) exampleTree exampleTree_proper
  rw [show exampleTree.ecoinvent = "2*if(a>0;if(b;1;2);(x))".toList by decide +kernel] at h
  rw [h]
  decide +kernel

/-- C55 is false of formulas that use a semicolon for anything else, as `power(a;b)` does: the conditional is cut at the first
two semicolons, inside the call, and the result is not the python text of the formula. -/
theorem C55_power_inside : rewriteIfs Char.isWhitespace "if(x;power(2;3);4)".toList = .ok "((power(2) if (x) else (3);4))".toList := by
  rw [C55_terminates]
  decide +kernel

end Ocelot
