import Verif.Proofs.TextLemmas

/-! # Property C58: reserved words in formulas -/

namespace Ocelot

namespace Spec

/-- The characters of identifiers: letters, digits and the underscore. -/
def identChar (c : Char) : Bool := c.isAlphanum || c == '_'

/-- A piece of a formula is an identifier or a single other character. -/
def Piece (p : Text) : Prop := (p ≠ [] ∧ ∀ c ∈ p, identChar c = true) ∨ ∃ c, p = [c] ∧ identChar c = false

/-- The formula is cut into pieces: no identifier follows another one directly. -/
def Pieces (ps : List Text) : Prop :=
  (∀ p ∈ ps, Piece p) ∧ ps.IsChain fun p q => ¬ ((∀ c ∈ p, identChar c = true) ∧ ∀ c ∈ q, identChar c = true)

/-- The formula with the identifiers in `H` in uppercase and everything else as it was. -/
def upperPieces (H : List Text) (ps : List Text) : Text :=
  (ps.map fun p => if p ∈ H then p.map Char.toUpper else p).flatten

end Spec

open Spec

theorem chain_tail {α : Type} {R : α → α → Prop} {a : α} {l : List α} (h : (a :: l).IsChain R) : l.IsChain R := by
  cases l with
  | nil => exact .nil
  | cons b l => exact (List.isChain_cons_cons.mp h).2

/-- The reserved words as texts. -/
def reservedTexts : List Text := reservedWords.map String.toList

theorem reserved_word {w : Text} (h : w ∈ reservedTexts) : w ≠ [] ∧ (∀ c ∈ w, identChar c = true) ∧ (∀ c ∈ upperAscii w, identChar c = true) ∧ upperAscii w ≠ [] ∧
    (∃ c ∈ w, c.isLower = true) ∧ ∀ c ∈ upperAscii w, c.isLower = false := by
  have : ∀ w ∈ reservedTexts, w ≠ [] ∧ (∀ c ∈ w, identChar c = true) ∧ (∀ c ∈ upperAscii w, identChar c = true) ∧ upperAscii w ≠ [] ∧
    (∃ c ∈ w, c.isLower = true) ∧ ∀ c ∈ upperAscii w, c.isLower = false := by decide +kernel
  exact this w h

/-- One word of a piece. -/
def upperPiece (w p : Text) : Text := if p = w then upperAscii w else p

theorem replaceAll_pieces {w : Text} (hw : w ≠ []) (hwc : ∀ c ∈ w, identChar c = true) (ps : List Text) (h : Pieces ps)
    (hin : ∀ p ∈ ps, w <:+: p → p = w) (W : Text) :
    replaceAll w W ps.flatten = (ps.map fun p => if p = w then W else p).flatten := by
  induction ps with
  | nil => exact replaceAll_nil _ _
  | cons p ps ih =>
    obtain ⟨h1, h2⟩ := h
    have hrec := ih ⟨fun q hq => h1 q (by simp [hq]), chain_tail h2⟩ (fun q hq => hin q (by simp [hq]))
    rw [List.flatten_cons, List.map_cons, List.flatten_cons]
    by_cases hp : p = w
    · subst hp
      rw [replaceAll_hit hw, hrec, if_pos rfl]
    · rw [if_neg hp, replaceAll_skip, hrec]
      intro u hu hup hpre
      have hpre' : w <+: u ∨ ∃ q, w = u ++ q ∧ q <+: ps.flatten := by
        rcases List.prefix_or_prefix_of_prefix hpre (List.prefix_append u ps.flatten) with h1 | ⟨q, rfl⟩
        · exact Or.inl h1
        · exact Or.inr ⟨q, rfl, (List.prefix_append_right_inj u).mp hpre⟩
      rcases hpre' with h3 | ⟨q, h3, h4⟩
      · exact hp (hin p (by simp) (h3.isInfix.trans hup.isInfix))
      · cases hq : q with
        | nil =>
          rw [hq, List.append_nil] at h3
          exact hp (hin p (by simp) (h3 ▸ hup.isInfix))
        | cons c q' =>
          rcases h1 p (by simp) with ⟨hpn, hpw⟩ | ⟨x, rfl, hx⟩
          · -- the next piece is not a word
            cases hps : ps with
            | nil =>
              rw [hps, hq] at h4
              simp at h4
            | cons r rs =>
              rw [hps] at h2 h4 h1
              rcases h1 r (by simp) with ⟨hrn, hrw⟩ | ⟨y, rfl, hy⟩
              · exact (List.isChain_cons_cons.mp h2).1 ⟨hpw, hrw⟩
              · rw [hq] at h4
                obtain ⟨z, hz⟩ := h4
                simp at hz
                have := hwc c (by rw [h3, hq]; simp)
                rw [hz.1, hy] at this
                cases this
          · have : u = [x] := by
              rcases List.suffix_cons_iff.mp hup with h | h
              · exact h
              · exact absurd (List.eq_nil_of_suffix_nil h) hu
            subst this
            have := hwc x (by rw [h3]; simp)
            rw [hx] at this
            cases this

theorem pieces_map {ps : List Text} (h : Pieces ps) {w : Text} (hw : w ∈ reservedTexts) : Pieces (ps.map (upperPiece w)) := by
  obtain ⟨h0, h1, h2, h3, h4, h5⟩ := reserved_word hw
  have key : ∀ p, Piece p → ((∀ c ∈ upperPiece w p, identChar c = true) → ∀ c ∈ p, identChar c = true) := by
    intro p _ hu
    unfold upperPiece at hu
    split at hu
    · next he => rw [he]; exact h1
    · exact hu
  refine ⟨?_, ?_⟩
  · intro p hp
    obtain ⟨q, hq, rfl⟩ := List.mem_map.mp hp
    unfold upperPiece
    split
    · exact Or.inl ⟨h3, h2⟩
    · exact h.1 q hq
  · have h' := h
    obtain ⟨hp, hc⟩ := h'
    clear h
    induction ps with
    | nil => exact .nil
    | cons p ps ih =>
      cases ps with
      | nil => exact .singleton _
      | cons q qs =>
        rw [List.isChain_cons_cons] at hc
        rw [List.map_cons, List.map_cons, List.isChain_cons_cons]
        refine ⟨?_, ih (fun r hr => hp r (by simp [hr])) hc.2⟩
        rintro ⟨g1, g2⟩
        exact hc.1 ⟨key p (hp p (by simp)) g1, key q (hp q (by simp)) g2⟩

theorem lower_infix {w p : Text} (hw : ∃ c ∈ w, c.isLower = true) (hp : ∀ c ∈ p, c.isLower = false) : ¬ w <:+: p := by
  rintro h
  obtain ⟨c, hc, hl⟩ := hw
  have := hp c (h.subset hc)
  rw [hl] at this
  cases this

/-- The pieces after the words in `H` were put in uppercase. -/
def afterUpper (H ps : List Text) : List Text := ps.map fun p => if p ∈ H then upperAscii p else p

theorem upperPiece_after {H ps : List Text} {w : Text} (hw : w ∈ reservedTexts) (hH : ∀ h ∈ H, h ∈ reservedTexts) :
    (afterUpper H ps).map (upperPiece w) = afterUpper (w :: H) ps := by
  unfold afterUpper
  rw [List.map_map]
  apply List.map_congr_left
  intro p _
  simp only [Function.comp]
  unfold upperPiece
  by_cases hp : p ∈ H
  · rw [if_pos hp, if_pos (c := p ∈ w :: H) (by simp [hp])]
    by_cases h : upperAscii p = w
    · exfalso
      obtain ⟨-, -, -, -, -, h5⟩ := reserved_word (hH p hp)
      obtain ⟨-, -, -, -, ⟨c, hc, hl⟩, -⟩ := reserved_word hw
      have := h5 c (by rw [h]; exact hc)
      rw [hl] at this
      cases this
    · rw [if_neg h]
  · rw [if_neg hp]
    by_cases h2 : p = w
    · rw [if_pos h2, if_pos (by simp [h2]), h2]
    · rw [if_neg h2, if_neg (by simp [h2, hp])]

theorem afterUpper_inside {H ps : List Text} (hH : ∀ h ∈ H, h ∈ reservedTexts)
    (hin : ∀ w ∈ reservedTexts, ∀ p ∈ ps, w <:+: p → p = w) {w : Text} (hw : w ∈ reservedTexts) : ∀ p ∈ afterUpper H ps, w <:+: p → p = w := by
  intro p hp hwp
  obtain ⟨q, hq, rfl⟩ := List.mem_map.mp hp
  by_cases h : q ∈ H
  · rw [if_pos h] at hwp
    obtain ⟨-, -, -, -, -, h5⟩ := reserved_word (hH q h)
    exact absurd hwp (lower_infix (reserved_word hw).2.2.2.2.1 h5)
  · rw [if_neg h] at hwp ⊢
    exact hin w hw q hq hwp

theorem fixStep_pieces {ps H : List Text} {w : Text} (hw : w ∈ reservedTexts) (hH : ∀ h ∈ H, h ∈ reservedTexts) (hp : Pieces (afterUpper H ps))
    (hin : ∀ w ∈ reservedTexts, ∀ p ∈ ps, w <:+: p → p = w) :
    replaceAll w (upperAscii w) (afterUpper H ps).flatten = (afterUpper (w :: H) ps).flatten ∧ Pieces (afterUpper (w :: H) ps) := by
  obtain ⟨h0, h1, -⟩ := reserved_word hw
  constructor
  · rw [replaceAll_pieces h0 h1 _ hp (afterUpper_inside hH hin hw), ← upperPiece_after hw hH]
    rfl
  · rw [← upperPiece_after hw hH]
    exact pieces_map hp hw

theorem foldl_pieces {ps : List Text} (hin : ∀ w ∈ reservedTexts, ∀ p ∈ ps, w <:+: p → p = w) {step : Text → Text → Text}
    (hstep : ∀ s w, step s w = s ∨ step s w = replaceAll w (upperAscii w) s) (words : List Text) (hws : ∀ w ∈ words, w ∈ reservedTexts)
    (H : List Text) (hH : ∀ h ∈ H, h ∈ reservedTexts) (hp : Pieces (afterUpper H ps)) :
    ∃ H', (∀ h ∈ H', h ∈ reservedTexts) ∧ Pieces (afterUpper H' ps) ∧ words.foldl step (afterUpper H ps).flatten = (afterUpper H' ps).flatten := by
  induction words generalizing H with
  | nil => exact ⟨H, hH, hp, rfl⟩
  | cons w words ih =>
    rw [List.foldl_cons]
    have hw := hws w (by simp)
    have hws' : ∀ w ∈ words, w ∈ reservedTexts := fun x hx => hws x (by simp [hx])
    rcases hstep (afterUpper H ps).flatten w with h | h
    · rw [h]
      exact ih hws' H hH hp
    · obtain ⟨h1, h2⟩ := fixStep_pieces hw hH hp hin
      rw [h, h1]
      apply ih hws' (w :: H) ?_ h2
      intro x hx
      rcases List.mem_cons.mp hx with rfl | hx
      · exact hw
      · exact hH x hx

theorem afterUpper_nil (ps : List Text) : afterUpper [] ps = ps := by
  simp [afterUpper]

/-- C58 (partial): in a formula in which no reserved word is a part of a longer identifier, the only thing
`check_and_fix_formula` does is to put some whole identifiers that are reserved words in uppercase. This holds for every
order in which python goes through its set of words, and whatever python can parse. -/
theorem C58_whole_words_partial (words : List Text) (hws : ∀ w ∈ words, w ∈ reservedTexts) (parses : Text → Bool) (ps : List Text) (hp : Pieces ps)
    (hin : ∀ w ∈ reservedTexts, ∀ p ∈ ps, w <:+: p → p = w) :
    ∃ H : List Text, (∀ h ∈ H, h ∈ reservedTexts) ∧ checkAndFixFormula words parses ps.flatten = upperPieces H ps := by
  have e0 : ps.flatten = (afterUpper [] ps).flatten := by rw [afterUpper_nil]
  have hs1 : ∀ s w, fixStarting s w = s ∨ fixStarting s w = replaceAll w (upperAscii w) s := by
    intro s w
    unfold fixStarting
    split <;> simp
  have hs2 : ∀ s w, fixInside s w = s ∨ fixInside s w = replaceAll w (upperAscii w) s := by
    intro s w
    unfold fixInside
    split <;> simp
  obtain ⟨H1, a1, a2, a3⟩ := foldl_pieces hin hs1 words hws [] (by simp) (by rw [afterUpper_nil]; exact hp)
  obtain ⟨H2, b1, b2, b3⟩ := foldl_pieces hin hs2 words hws H1 a1 a2
  unfold checkAndFixFormula
  simp only
  rw [e0, a3, b3]
  split
  · exact ⟨H1, a1, rfl⟩
  · split
    · exact ⟨H2, b1, rfl⟩
    · exact ⟨[], by simp, rfl⟩

/-- C58 (partial): a formula that python can parse and that does not start with a reserved word is left alone, whatever it contains. -/
theorem C58_parsable_partial (words : List Text) (parses : Text → Bool) (s : Text) (hs : ∀ w ∈ words, startsReserved w s = false)
    (hp : parses s = true) : checkAndFixFormula words parses s = s := by
  have h : words.foldl fixStarting s = s := by
    induction words with
    | nil => rfl
    | cons w words ih =>
      rw [List.foldl_cons]
      have : fixStarting s w = s := by
        unfold fixStarting
        rw [hs w (by simp)]
        rfl
      rw [this]
      exact ih fun w hw => hs w (by simp [hw])
  unfold checkAndFixFormula
  simp only
  rw [h, if_pos hp]

/-- C58: a formula is never changed to something that python cannot parse. -/
theorem C58_parses_or_unchanged (words : List Text) (parses : Text → Bool) (s : Text) :
    checkAndFixFormula words parses s = s ∨ parses (checkAndFixFormula words parses s) = true := by
  unfold checkAndFixFormula
  simp only
  split
  · next h => exact Or.inr h
  · split
    · next h => exact Or.inr h
    · exact Or.inl rfl

/-- C58 is false: if a formula starts with a reserved word, that word is also replaced inside longer identifiers. Here the
variable `yield_factor` turns into `YIELD_factor`, in whatever order python goes through its words, while the variable itself
keeps its name: the formula now refers to a variable that does not exist. -/
theorem C58_longer_identifier (words : List Text) (hws : words.Perm reservedTexts) (parses : Text → Bool)
    (hp : parses "YIELD*YIELD_factor".toList = true) :
    checkAndFixFormula words parses "yield*yield_factor".toList = "YIELD*YIELD_factor".toList ∧ fixVariable "yield_factor" = "yield_factor" := by
  refine ⟨?_, by decide +kernel⟩
  have h1 : ∀ w ∈ reservedTexts, w ≠ "yield".toList → fixStarting "yield*yield_factor".toList w = "yield*yield_factor".toList := by decide +kernel
  have h2 : ∀ w ∈ reservedTexts, fixStarting "YIELD*YIELD_factor".toList w = "YIELD*YIELD_factor".toList := by decide +kernel
  have h3 : fixStarting "yield*yield_factor".toList "yield".toList = "YIELD*YIELD_factor".toList := by decide +kernel
  have h4 : ∀ l : List Text, (∀ w ∈ l, w ∈ reservedTexts) → l.foldl fixStarting "YIELD*YIELD_factor".toList = "YIELD*YIELD_factor".toList := by
    intro l hl
    induction l with
    | nil => rfl
    | cons w l ih =>
      rw [List.foldl_cons, h2 w (hl w (by simp))]
      exact ih fun x hx => hl x (by simp [hx])
  have h5 : ∀ l : List Text, (∀ w ∈ l, w ∈ reservedTexts) → "yield".toList ∈ l → l.foldl fixStarting "yield*yield_factor".toList = "YIELD*YIELD_factor".toList := by
    intro l hl hy
    induction l with
    | nil => cases hy
    | cons w l ih =>
      rw [List.foldl_cons]
      have hl' : ∀ w ∈ l, w ∈ reservedTexts := fun x hx => hl x (by simp [hx])
      by_cases hw : w = "yield".toList
      · rw [hw, h3]
        exact h4 l hl'
      · rw [h1 w (hl w (by simp)) hw]
        rcases List.mem_cons.mp hy with h | h
        · exact absurd h.symm hw
        · exact ih hl' h
  have h6 := h5 words (fun w hw => hws.subset hw) (hws.symm.subset (by decide +kernel))
  unfold checkAndFixFormula
  simp only
  rw [h6, if_pos hp]

/-! ### The exact result -/

namespace Spec

/-- No reserved word is a part of a longer identifier, unless that identifier consists of letters and underscores and the reserved word does not occur on its own. -/
def Separate (ps : List Text) : Prop :=
  ∀ w ∈ reservedTexts, ∀ p ∈ ps, w <:+: p → p = w ∨ (w ∉ ps ∧ ∀ c ∈ p, c.isAlpha = true ∨ c = '_')

/-- The reserved word a formula begins with, if something follows it. -/
def leading : List Text → List Text
  | p :: _ :: _ => if p ∈ reservedTexts then [p] else []
  | _ => []

end Spec

theorem isWordChar_iff (c : Char) : isWordChar c = true ↔ c.isAlpha = true ∨ c = '_' := by
  unfold isWordChar Char.isAlpha Char.isUpper Char.isLower
  simp only [Bool.or_eq_true, decide_eq_true_eq, Bool.and_eq_true, beq_iff_eq]
  constructor
  · rintro ((h | h) | h)
    · exact Or.inl (Or.inr h)
    · exact Or.inl (Or.inl h)
    · exact Or.inr h
  · rintro ((h | h) | h)
    · exact Or.inl (Or.inr h)
    · exact Or.inl (Or.inl h)
    · exact Or.inr h

theorem ident_of_word {c : Char} (h : isWordChar c = true) : identChar c = true := by
  unfold identChar Char.isAlphanum
  rcases (isWordChar_iff c).mp h with h | h
  · simp [h]
  · simp [h]

theorem not_word {c : Char} (h : identChar c = false) : isWordChar c = false := by
  rcases hc : isWordChar c with _ | _
  · rfl
  · rw [ident_of_word hc] at h; cases h

theorem findsReserved_found {w : Text} : ∀ {before : Bool} {pre post : Text}, ((pre = [] ∧ before = true) ∨ ∃ c, pre.getLast? = some c ∧ isWordChar c = false) →
    endsWord post = true → findsReserved w before (pre ++ w ++ post) = true := by
  intro before pre
  induction pre generalizing before with
  | nil =>
    intro post h1 h2
    have hb : before = true := by
      rcases h1 with ⟨-, h⟩ | ⟨c, h, -⟩
      · exact h
      · simp at h
    subst hb
    rw [List.nil_append]
    rcases hs : w ++ post with _ | ⟨c, s⟩
    · have : w = [] := (List.append_eq_nil_iff.mp hs).1
      simp [findsReserved, this]
    · unfold findsReserved
      rw [← hs]
      have : w.isPrefixOf (w ++ post) = true := by simp
      rw [this, List.drop_left]
      simp [h2]
  | cons x pre ih =>
    intro post h1 h2
    rw [List.cons_append, List.cons_append]
    unfold findsReserved
    rw [ih (before := !isWordChar x) ?_ h2]
    · simp
    · rcases h1 with ⟨h, -⟩ | ⟨c, h, hc⟩
      · cases h
      · cases pre with
        | nil =>
          left
          refine ⟨rfl, ?_⟩
          simp at h
          rw [h, hc]; rfl
        | cons y pre =>
          right
          exact ⟨c, by simpa using h, hc⟩

theorem findsReserved_inv {w : Text} (hw : w ≠ []) : ∀ {before : Bool} {s : Text}, findsReserved w before s = true →
    ∃ pre post, s = pre ++ w ++ post ∧ ((pre = [] ∧ before = true) ∨ ∃ c, pre.getLast? = some c ∧ isWordChar c = false) ∧ endsWord post = true := by
  intro before s
  induction s generalizing before with
  | nil =>
    intro h
    simp [findsReserved, hw] at h
  | cons c s ih =>
    intro h
    unfold findsReserved at h
    rcases Bool.or_eq_true_iff.mp h with h | h
    · simp only [Bool.and_eq_true] at h
      obtain ⟨⟨hb, hp⟩, he⟩ := h
      obtain ⟨t, ht⟩ := List.isPrefixOf_iff_prefix.mp hp
      refine ⟨[], t, by rw [List.nil_append, ht], Or.inl ⟨rfl, hb⟩, ?_⟩
      rw [← ht, List.drop_left] at he
      exact he
    · obtain ⟨pre, post, rfl, h1, h2⟩ := ih h
      refine ⟨c :: pre, post, rfl, Or.inr ?_, h2⟩
      rcases h1 with ⟨rfl, hb⟩ | ⟨x, hx, hc⟩
      · exact ⟨c, rfl, by simpa using hb⟩
      · cases pre with
        | nil => simp at hx
        | cons y pre => exact ⟨x, by simpa using hx, hc⟩

/-- The flattened rest of a chain of pieces behind an identifier starts with no identifier character. -/
theorem rest_head {p : Text} {ps : List Text} (h : Pieces (p :: ps)) (hp : ∀ c ∈ p, identChar c = true) {c : Char} {t : Text} (ht : ps.flatten = c :: t) :
    identChar c = false := by
  cases ps with
  | nil => simp at ht
  | cons q qs =>
    rcases h.1 q (by simp) with ⟨hq, hqw⟩ | ⟨y, rfl, hy⟩
    · exact absurd ⟨hp, hqw⟩ (List.isChain_cons_cons.mp h.2).1
    · simp at ht
      rw [← ht.1]; exact hy

theorem pieces_tail {p : Text} {ps : List Text} (h : Pieces (p :: ps)) : Pieces ps := ⟨fun q hq => h.1 q (by simp [hq]), chain_tail h.2⟩

/-- A word in a chain of pieces that starts in the first piece lies inside it. -/
theorem word_inside {w : Text} (hw : w ≠ []) (hwc : ∀ c ∈ w, identChar c = true) {p : Text} {ps : List Text} (h : Pieces (p :: ps)) {pre post : Text}
    (he : p ++ ps.flatten = pre ++ w ++ post) (hl : pre.length < p.length) :
    ∃ post', p = pre ++ w ++ post' ∧ post = post' ++ ps.flatten ∧ ∀ c ∈ p, identChar c = true := by
  rw [List.append_assoc] at he
  obtain ⟨u, hu⟩ : ∃ u, p = pre ++ u := by
    rcases List.append_eq_append_iff.mp he with ⟨a, h1, -⟩ | ⟨a, h1, -⟩
    · rw [h1] at hl; simp at hl
    · exact ⟨a, h1⟩
  have hune : u ≠ [] := by
    rintro rfl
    rw [hu] at hl; simp at hl
  have he2 : u ++ ps.flatten = w ++ post := by
    rw [hu, List.append_assoc] at he
    exact List.append_cancel_left he
  have hpid : ∀ c ∈ p, identChar c = true := by
    rcases h.1 p (by simp) with ⟨-, hp⟩ | ⟨x, hx, hxi⟩
    · exact hp
    · exfalso
      cases u with
      | nil => exact hune rfl
      | cons y u =>
        have hy : y = x := by
          have : y ∈ p := by rw [hu]; simp
          rw [hx] at this
          simpa using this
        cases w with
        | nil => exact hw rfl
        | cons z w =>
          simp at he2
          have := hwc z (by simp)
          rw [← he2.1, hy, hxi] at this
          cases this
  rcases List.append_eq_append_iff.mp he2 with ⟨a, h1, h2⟩ | ⟨a, h1, h2⟩
  · cases a with
    | nil =>
      refine ⟨[], by simp [hu, h1], ?_, hpid⟩
      simpa using h2.symm
    | cons c a =>
      exfalso
      have := rest_head h hpid (c := c) (t := a ++ post) (by simpa using h2)
      rw [hwc c (by rw [h1]; simp)] at this
      cases this
  · exact ⟨a, by rw [hu, h1]; simp, h2, hpid⟩

theorem head_notWord {post' : Text} {c : Char} (hc : post'.head? = some c) {t : Text} (he : endsWord (post' ++ t) = true) : isWordChar c = false := by
  cases post' with
  | nil => simp at hc
  | cons x post' =>
    simp at hc
    subst hc
    simpa [endsWord] using he

theorem found_piece {w : Text} (hw : w ≠ []) (hwc : ∀ c ∈ w, identChar c = true) (ps : List Text) (h : Pieces ps)
    (hs : ∀ p ∈ ps, w <:+: p → p = w ∨ ∀ c ∈ p, isWordChar c = true) {pre post : Text} (he : ps.flatten = pre ++ w ++ post)
    (h1 : ∀ c, pre.getLast? = some c → isWordChar c = false) (h2 : endsWord post = true) : w ∈ ps := by
  induction ps generalizing pre with
  | nil =>
    exfalso
    simp at he
    exact hw he.2.1
  | cons p ps ih =>
    rw [List.flatten_cons] at he
    by_cases hl : pre.length < p.length
    · obtain ⟨post', e1, e2, hid⟩ := word_inside hw hwc h he hl
      by_cases hpw : p = w
      · simp [hpw]
      exfalso
      have hall := (hs p (by simp) ⟨pre, post', e1.symm⟩).resolve_left hpw
      rcases List.eq_nil_or_concat pre with rfl | ⟨pre', c, rfl⟩
      · cases post' with
        | nil => exact hpw (by simpa using e1)
        | cons x post' =>
          have := head_notWord (post' := x :: post') rfl (e2 ▸ h2)
          rw [hall x (by rw [e1]; simp)] at this
          cases this
      · have := h1 c (by simp)
        rw [hall c (by rw [e1]; simp)] at this
        cases this
    · have hpre : ∃ pre', pre = p ++ pre' := by
        rw [List.append_assoc] at he
        rcases List.append_eq_append_iff.mp he with ⟨a, h1, -⟩ | ⟨a, h1, -⟩
        · exact ⟨a, h1⟩
        · have : a = [] := by
            have : p.length = pre.length + a.length := by rw [h1]; simp
            exact List.length_eq_zero_iff.mp (by omega)
          exact ⟨[], by rw [h1, this]; simp⟩
      obtain ⟨pre', rfl⟩ := hpre
      refine List.mem_cons_of_mem _ (ih (pieces_tail h) (fun q hq => hs q (by simp [hq])) (pre := pre') (by simpa using he) ?_)
      intro c hc
      exact h1 c (by rw [List.getLast?_append, hc]; rfl)

/-- The search finds exactly the words that are pieces. -/
theorem findsReserved_pieces {w : Text} (hw : w ≠ []) (hwc : ∀ c ∈ w, identChar c = true) (ps : List Text) (h : Pieces ps)
    (hs : ∀ p ∈ ps, w <:+: p → p = w ∨ ∀ c ∈ p, isWordChar c = true) : findsReserved w true ps.flatten = true ↔ w ∈ ps := by
  constructor
  · intro hf
    obtain ⟨pre, post, he, h1, h2⟩ := findsReserved_inv hw hf
    refine found_piece hw hwc ps h hs he ?_ h2
    intro c hc
    rcases h1 with ⟨rfl, -⟩ | ⟨x, hx, hxw⟩
    · simp at hc
    · rw [hc] at hx
      cases hx
      exact hxw
  · intro hm
    obtain ⟨l1, l2, rfl⟩ := List.append_of_mem hm
    have hfl : (l1 ++ w :: l2).flatten = l1.flatten ++ w ++ l2.flatten := by simp
    rw [hfl]
    apply findsReserved_found
    · rcases List.eq_nil_or_concat l1 with rfl | ⟨l, q, rfl⟩
      · exact Or.inl ⟨rfl, rfl⟩
      · right
        have hq : ¬ ∀ c ∈ q, identChar c = true := by
          intro hq
          have h2 := h.2
          have hch : ∀ l : List Text, (l ++ q :: w :: l2).IsChain (fun p q => ¬ ((∀ c ∈ p, identChar c = true) ∧ ∀ c ∈ q, identChar c = true)) → False := by
            intro l
            induction l with
            | nil => exact fun hh => (List.isChain_cons_cons.mp hh).1 ⟨hq, hwc⟩
            | cons a l ih => exact fun hh => ih (chain_tail hh)
          exact hch l (by simpa using h2)
        rcases h.1 q (by simp) with ⟨-, h1⟩ | ⟨x, rfl, hx⟩
        · exact absurd h1 hq
        · exact ⟨x, by simp, not_word hx⟩
    · rcases ht : l2.flatten with _ | ⟨c, t⟩
      · rfl
      · have hpt : ∀ l : List Text, Pieces (l ++ w :: l2) → Pieces (w :: l2) := by
          intro l
          induction l with
          | nil => exact id
          | cons a l ih => exact fun hh => ih (pieces_tail hh)
        have := rest_head (hpt l1 h) hwc ht
        simp [endsWord, not_word this]

theorem startsReserved_pieces {w : Text} (hw : w ≠ []) (hwc : ∀ c ∈ w, identChar c = true) (ps : List Text) (h : Pieces ps)
    (hs : ∀ p ∈ ps, w <:+: p → p = w ∨ ∀ c ∈ p, isWordChar c = true) : startsReserved w ps.flatten = true ↔ ∃ q qs, ps = w :: q :: qs := by
  constructor
  · intro hf
    unfold startsReserved at hf
    simp only [Bool.and_eq_true] at hf
    obtain ⟨hp, he⟩ := hf
    obtain ⟨t, ht⟩ := List.isPrefixOf_iff_prefix.mp hp
    rw [← ht, List.drop_left] at he
    cases ps with
    | nil =>
      simp at ht
      exact absurd ht.1 hw
    | cons p ps =>
      have hl : ([] : Text).length < p.length := by
        rcases h.1 p (by simp) with ⟨h1, -⟩ | ⟨x, rfl, -⟩
        · exact List.length_pos_iff.mpr h1
        · simp
      obtain ⟨post', e1, e2, hid⟩ := word_inside hw hwc h (pre := []) (post := t) (by simpa using ht.symm) hl
      rw [List.nil_append] at e1
      have hpw : p = w := by
        rcases hs p (by simp) ⟨[], post', by simp [e1]⟩ with h1 | h1
        · exact h1
        · cases post' with
          | nil => simpa using e1
          | cons x post' =>
            exfalso
            have hx := h1 x (by rw [e1]; simp)
            rw [e2] at he
            simp [hx] at he
      subst hpw
      cases ps with
      | nil =>
        have : t = [] := by simpa using ht
        subst this
        simp at he
      | cons q qs => exact ⟨q, qs, rfl⟩
  · rintro ⟨q, qs, rfl⟩
    unfold startsReserved
    rw [List.flatten_cons, List.drop_left]
    have : w.isPrefixOf (w ++ (q :: qs).flatten) = true := by simp
    rw [this]
    rcases ht : (q :: qs).flatten with _ | ⟨c, t⟩
    · exfalso
      rw [List.flatten_cons] at ht
      have hq : q = [] := (List.append_eq_nil_iff.mp ht).1
      rcases h.1 q (by simp) with ⟨h1, -⟩ | ⟨x, hx, -⟩
      · exact h1 hq
      · rw [hq] at hx; cases hx
    · simp [not_word (rest_head h hwc ht)]

theorem separate_word {ps : List Text} (h : Separate ps) {w : Text} (hw : w ∈ reservedTexts) : ∀ p ∈ ps, w <:+: p → p = w ∨ ∀ c ∈ p, isWordChar c = true := by
  intro p hp hi
  rcases h w hw p hp hi with h1 | ⟨-, h1⟩
  · exact Or.inl h1
  · exact Or.inr fun c hc => (isWordChar_iff c).mpr (h1 c hc)

theorem upper_not_reserved {p : Text} (hp : p ∈ reservedTexts) {w : Text} (hw : w ∈ reservedTexts) : ¬ w <:+: upperAscii p := by
  obtain ⟨-, -, -, -, -, h5⟩ := reserved_word hp
  exact lower_infix (reserved_word hw).2.2.2.2.1 h5

theorem separate_map {ps : List Text} (h : Separate ps) {w : Text} (hw : w ∈ reservedTexts) : Separate (ps.map (upperPiece w)) := by
  intro v hv p hp hi
  obtain ⟨q, hq, rfl⟩ := List.mem_map.mp hp
  unfold upperPiece at hi ⊢
  split at hi
  · exact absurd hi (upper_not_reserved hw hv)
  · next hne =>
    rw [if_neg hne]
    rcases h v hv q hq hi with h1 | ⟨h1, h2⟩
    · exact Or.inl h1
    · refine Or.inr ⟨?_, h2⟩
      intro hm
      obtain ⟨r, hr, hrv⟩ := List.mem_map.mp hm
      split at hrv
      · exact upper_not_reserved hw hv (hrv ▸ List.infix_refl _)
      · exact h1 (hrv ▸ hr)

theorem map_upperPiece_absent {ps : List Text} {w : Text} (h : w ∉ ps) : ps.map (upperPiece w) = ps := by
  conv_rhs => rw [← List.map_id ps]
  apply List.map_congr_left
  intro p hp
  unfold upperPiece
  have : p ≠ w := fun he => h (he ▸ hp)
  rw [if_neg this]
  rfl

theorem replace_present {ps : List Text} (hp : Pieces ps) (hs : Separate ps) {w : Text} (hw : w ∈ reservedTexts) (hm : w ∈ ps) :
    replaceAll w (upperAscii w) ps.flatten = (ps.map (upperPiece w)).flatten := by
  obtain ⟨h0, h1, -⟩ := reserved_word hw
  refine replaceAll_pieces h0 h1 ps hp ?_ _
  intro p hpm hi
  rcases hs w hw p hpm hi with h | ⟨h, -⟩
  · exact h
  · exact absurd hm h

theorem fixInside_pieces {ps : List Text} (hp : Pieces ps) (hs : Separate ps) {w : Text} (hw : w ∈ reservedTexts) :
    fixInside ps.flatten w = (ps.map (upperPiece w)).flatten := by
  obtain ⟨h0, h1, -⟩ := reserved_word hw
  have hiff := findsReserved_pieces h0 h1 ps hp (separate_word hs hw)
  unfold fixInside
  split
  · next h => exact replace_present hp hs hw (hiff.mp h)
  · next h => rw [map_upperPiece_absent (fun hm => h (hiff.mpr hm))]

theorem foldl_inside {ps : List Text} (words : List Text) (hws : ∀ w ∈ words, w ∈ reservedTexts) (H : List Text) (hH : ∀ h ∈ H, h ∈ reservedTexts)
    (hp : Pieces (afterUpper H ps)) (hs : Separate (afterUpper H ps)) :
    words.foldl fixInside (afterUpper H ps).flatten = (afterUpper (words.reverse ++ H) ps).flatten := by
  induction words generalizing H with
  | nil => rfl
  | cons w words ih =>
    have hw := hws w (by simp)
    rw [List.foldl_cons, fixInside_pieces hp hs hw, upperPiece_after hw hH]
    rw [ih (fun x hx => hws x (by simp [hx])) (w :: H)]
    · simp
    · intro x hx
      rcases List.mem_cons.mp hx with rfl | hx
      · exact hw
      · exact hH x hx
    · rw [← upperPiece_after hw hH]; exact pieces_map hp hw
    · rw [← upperPiece_after hw hH]; exact separate_map hs hw

theorem afterUpper_congr {H K ps : List Text} (h : ∀ p ∈ ps, p ∈ H ↔ p ∈ K) : afterUpper H ps = afterUpper K ps := by
  apply List.map_congr_left
  intro p hp
  by_cases h1 : p ∈ H
  · rw [if_pos h1, if_pos ((h p hp).mp h1)]
  · rw [if_neg h1, if_neg (fun h2 => h1 ((h p hp).mpr h2))]

theorem foldl_fixed {words : List Text} {s : Text} (hs : ∀ w ∈ words, startsReserved w s = false) : words.foldl fixStarting s = s := by
  induction words with
  | nil => rfl
  | cons w words ih =>
    have : fixStarting s w = s := by
      unfold fixStarting
      rw [hs w (by simp)]
      rfl
    rw [List.foldl_cons, this]
    exact ih fun w hw => hs w (by simp [hw])

theorem foldl_starting {ps : List Text} (words : List Text) (hws : ∀ w ∈ words, w ∈ reservedTexts) (hall : ∀ w ∈ leading ps, w ∈ words) (hp : Pieces ps)
    (hs : Separate ps) : words.foldl fixStarting ps.flatten = (afterUpper (leading ps) ps).flatten := by
  have hiff : ∀ w ∈ reservedTexts, startsReserved w ps.flatten = true ↔ ∃ q qs, ps = w :: q :: qs := fun w hw =>
    startsReserved_pieces (reserved_word hw).1 (reserved_word hw).2.1 ps hp (separate_word hs hw)
  rcases hl : leading ps with _ | ⟨p, l⟩
  · rw [afterUpper_nil]
    refine foldl_fixed fun w hw => ?_
    rcases hst : startsReserved w ps.flatten with _ | _
    · rfl
    · obtain ⟨q, qs, rfl⟩ := (hiff w (hws w hw)).mp hst
      simp only [leading, if_pos (hws w hw)] at hl
      cases hl
  · obtain ⟨q, qs, hps, hpr, rfl⟩ : ∃ q qs, ps = p :: q :: qs ∧ p ∈ reservedTexts ∧ l = [] := by
      unfold leading at hl
      split at hl
      · split at hl
        · next hh =>
          cases hl
          exact ⟨_, _, rfl, hh, rfl⟩
        · cases hl
      · cases hl
    have hpm : p ∈ words := hall p (by rw [hl]; simp)
    have hfirst : fixStarting ps.flatten p = (ps.map (upperPiece p)).flatten := by
      unfold fixStarting
      rw [if_pos ((hiff p hpr).mpr ⟨q, qs, hps⟩)]
      exact replace_present hp hs hpr (by rw [hps]; simp)
    have hother : ∀ w ∈ reservedTexts, w ≠ p → fixStarting ps.flatten w = ps.flatten := by
      intro w hw hne
      unfold fixStarting
      rw [if_neg]
      intro hst
      obtain ⟨q', qs', he⟩ := (hiff w hw).mp hst
      rw [hps] at he
      cases he
      exact hne rfl
    have hafter : ∀ w ∈ reservedTexts, startsReserved w (ps.map (upperPiece p)).flatten = false := by
      intro w hw
      rcases hst : startsReserved w (ps.map (upperPiece p)).flatten with _ | _
      · rfl
      · exfalso
        obtain ⟨q', qs', he⟩ := (startsReserved_pieces (reserved_word hw).1 (reserved_word hw).2.1 _ (pieces_map hp hpr) (separate_word (separate_map hs hpr) hw)).mp hst
        rw [hps] at he
        simp only [List.map_cons, List.cons.injEq] at he
        have : upperPiece p p = upperAscii p := if_pos rfl
        rw [this] at he
        exact upper_not_reserved hpr hw (he.1 ▸ List.infix_refl _)
    have hmap : (ps.map (upperPiece p)).flatten = (afterUpper [p] ps).flatten := by
      have := upperPiece_after (H := []) (ps := ps) hpr (by simp)
      rw [afterUpper_nil] at this
      rw [this]
    rw [← hmap]
    clear hall
    induction words with
    | nil => cases hpm
    | cons w words ih =>
      rw [List.foldl_cons]
      by_cases hwp : w = p
      · rw [hwp, hfirst]
        exact foldl_fixed fun v hv => hafter v (hws v (by simp [hv]))
      · rw [hother w (hws w (by simp)) hwp]
        refine ih (fun x hx => hws x (by simp [hx])) ?_
        rcases List.mem_cons.mp hpm with h | h
        · exact absurd h.symm hwp
        · exact h

/-- C58 (partial): the exact result. A reserved word at the beginning of a formula is put in uppercase everywhere. If python cannot parse the formula then, all
identifiers that are reserved words are put in uppercase, and if python cannot parse that either, the formula is left as it was. Identifiers that only contain a
reserved word, such as `yield_management`, are left alone. What is missing: formulas in which a reserved word occurs both on its own and in a longer
identifier, or in an identifier with digits; there the claim is false (`C58_longer_identifier`). -/
theorem C58_exact_partial (words : List Text) (hws : words.Perm reservedTexts) (parses : Text → Bool) (ps : List Text) (hp : Pieces ps) (hs : Separate ps) :
    checkAndFixFormula words parses ps.flatten =
      if parses (upperPieces (leading ps) ps) then upperPieces (leading ps) ps
      else if parses (upperPieces reservedTexts ps) then upperPieces reservedTexts ps
      else ps.flatten := by
  have hmem : ∀ w ∈ words, w ∈ reservedTexts := fun w hw => hws.subset hw
  have hlead : ∀ w ∈ leading ps, w ∈ reservedTexts := by
    intro w hw
    unfold leading at hw
    split at hw
    · split at hw
      · next h =>
        rw [List.mem_singleton] at hw
        rw [hw]; exact h
      · cases hw
    · cases hw
  have h1 := foldl_starting words hmem (fun w hw => hws.symm.subset (hlead w hw)) hp hs
  have hstep : ∀ K : List Text, (∀ h ∈ K, h ∈ reservedTexts) → K = [] ∨ (∃ k, K = [k]) → Pieces (afterUpper K ps) ∧ Separate (afterUpper K ps) := by
    rintro K hK (rfl | ⟨k, rfl⟩)
    · rw [afterUpper_nil]; exact ⟨hp, hs⟩
    · have := upperPiece_after (H := []) (ps := ps) (hK k (by simp)) (by simp)
      rw [afterUpper_nil] at this
      rw [← this]
      exact ⟨pieces_map hp (hK k (by simp)), separate_map hs (hK k (by simp))⟩
  have hsh : leading ps = [] ∨ ∃ k, leading ps = [k] := by
    unfold leading
    split
    · split
      · exact Or.inr ⟨_, rfl⟩
      · exact Or.inl rfl
    · exact Or.inl rfl
  obtain ⟨g1, g2⟩ := hstep (leading ps) hlead hsh
  have h2 := foldl_inside words hmem (leading ps) hlead g1 g2
  have h3 : afterUpper (words.reverse ++ leading ps) ps = afterUpper reservedTexts ps := by
    apply afterUpper_congr
    intro p _
    rw [List.mem_append, List.mem_reverse, hws.mem_iff]
    exact ⟨fun h => h.elim id (hlead p), Or.inl⟩
  unfold checkAndFixFormula
  simp only
  rw [h1, h2, h3]
  rfl

example : Separate ["in".toList, ['*'], "yield_management".toList, ['-'], "x2".toList] := by
  unfold Separate; decide +kernel
example : checkAndFixFormula reservedTexts (fun s => s == "IN*yield_management-x2".toList) "in*yield_management-x2".toList = "IN*yield_management-x2".toList := by decide +kernel

example : Pieces ["yield".toList, ['-'], "fair".toList, ['*'], "knight".toList] := by
  refine ⟨?_, ?_⟩
  · intro p hp
    simp only [List.mem_cons, List.not_mem_nil, or_false] at hp
    rcases hp with rfl | rfl | rfl | rfl | rfl
    · exact Or.inl (by decide)
    · exact Or.inr ⟨'-', by decide⟩
    · exact Or.inl (by decide)
    · exact Or.inr ⟨'*', by decide⟩
    · exact Or.inl (by decide)
  · decide
example : ∀ w ∈ reservedTexts, ∀ p ∈ ["yield".toList, ['-'], "fair".toList, ['*'], "knight".toList], w <:+: p → p = w := by decide +kernel
example : checkAndFixFormula reservedTexts (fun _ => true) "yield-fair*knight".toList = "YIELD-fair*knight".toList := by decide +kernel

end Ocelot
