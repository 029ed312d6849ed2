import Verif.Model.References
import Verif.Proofs.TextLemmas
import Verif.Proofs.ActivityLinks
import Verif.Props.RestOfWorld

/-! # Property C57: implicit references -/

namespace Ocelot

namespace Spec

/-- A uuid: 36 characters, dashes after 8, 12, 16 and 20 digits, all other characters hexadecimal digits. -/
def Uuid (u : Text) : Prop :=
  u.length = 36 ∧ ∀ i c, u[i]? = some c → if i ∈ [8, 13, 18, 23] then c = '-' else c ∈ "0123456789abcdef".toList

/-- `string` is a reference to the amount of the object `uuid`, and occurs in the formula. -/
def AmountRef (f string uuid : Text) : Prop :=
  Uuid uuid ∧ (string = "Ref('".toList ++ uuid ++ "')".toList ∨ string = "ref('".toList ++ uuid ++ "')".toList) ∧ string <:+: f

/-- `string` is a reference to the production volume of the exchange `uuid`, and occurs in the formula. -/
def VolumeRef (f string uuid : Text) : Prop :=
  Uuid uuid ∧ (string = "Ref('".toList ++ uuid ++ "', 'ProductionVolume')".toList ∨ string = "ref('".toList ++ uuid ++ "', 'ProductionVolume')".toList) ∧
    string <:+: f

/-- The first element with a property is at position `i`. -/
def FirstWith {α : Type} (P : α → Prop) (l : List α) (i : ℕ) : Prop :=
  (∃ x, l[i]? = some x ∧ P x) ∧ ∀ j x, j < i → l[j]? = some x → ¬ P x

/-- The object whose amount the id stands for: the first exchange with this id, or else the first parameter. -/
def AmountOf (ds : Dataset) (u : Text) (a : Addr) : Prop :=
  (∃ i, a = .exc i ∧ FirstWith (fun e : Exchange => e.id.toList = u) ds.exchanges i) ∨
  ((∀ e ∈ ds.exchanges, e.id.toList ≠ u) ∧ ∃ i, a = .par i ∧ FirstWith (fun p : Param => p.id.toList = u) ds.parameters i)

/-- The production volume of the first exchange with this id. -/
def VolumeOf (ds : Dataset) (u : Text) (a : Addr) : Prop :=
  ∃ i, a = .pv i ∧ FirstWith (fun e : Exchange => e.id.toList = u) ds.exchanges i ∧ (ds.obj? (.pv i)).isSome

/-- `start`, then the id without dashes. -/
def nameFromId (start : Text) (id : Option String) : String := String.ofList (start ++ (id.getD "").toList.filter fun c => c != '-')

/-- The name of a variable that is created for a referenced object: made from its id, or from the id of the exchange for a production volume. -/
def newName (ds : Dataset) : Addr → String
  | .exc i => nameFromId "ref_replacement_".toList (ds.exchanges[i]?.map Exchange.id)
  | .par i => nameFromId "ref_replacement_".toList (ds.parameters[i]?.map Param.id)
  | .pv i => nameFromId "ref_pv_replacement_".toList (ds.exchanges[i]?.map Exchange.id)
  | .prop _ _ => ""

/-- `g` is `f` with all references to amounts replaced by the variables that the referenced objects have in `out`. -/
def AmountsReplaced (ds out : Dataset) (f g : Text) : Prop :=
  ∃ σ : Text → String, (∀ string u, AmountRef f string u → ∃ b, AmountOf ds u b ∧ out.varAt b = some (σ u)) ∧
    g = (exchangeReferences f).foldl (fun g r => replaceAll r.1 (σ r.2).toList g) f

/-- `g` is `f` with all references to production volumes replaced by the variables that these have in `out`. -/
def VolumesReplaced (ds out : Dataset) (f g : Text) : Prop :=
  ∃ σ : Text → String, (∀ string u, VolumeRef f string u → ∃ b, VolumeOf ds u b ∧ out.varAt b = some (σ u)) ∧
    g = (pvReferences f).foldl (fun g r => replaceAll r.1 (σ r.2).toList g) f

/-- The formula of `b` refers to `a`: to its amount, or to a production volume (these are looked for after the amounts were replaced). -/
def RefersTo (ds out : Dataset) (b a : Addr) : Prop :=
  ∃ f g, ds.formulaAt b = some f ∧ AmountsReplaced ds out f.toList g ∧
    ((∃ string u, AmountRef f.toList string u ∧ AmountOf ds u a) ∨ ∃ string u, VolumeRef g string u ∧ VolumeOf ds u a)

end Spec

open Spec

/-! ## Finding references -/

/-- The text before the uuid. -/
def IsRefStart (h : Text) : Prop := h = "Ref('".toList ∨ h = "ref('".toList

theorem refMatch_some {suffix s u : Text} :
    refMatch suffix s = some u ↔ isUuid u = true ∧ ∃ h, IsRefStart h ∧ h ++ u ++ suffix <+: s := by
  constructor
  · intro hm
    unfold refMatch at hm
    split at hm
    · next hc =>
      have hu := Option.some.inj hm
      simp only [Bool.and_eq_true, Bool.or_eq_true, beq_iff_eq] at hc
      obtain ⟨⟨h1, h2⟩, h3⟩ := hc
      rw [hu] at h2
      refine ⟨h2, s.take 5, h1, ?_⟩
      obtain ⟨z, hz⟩ := List.isPrefixOf_iff_prefix.mp h3
      refine ⟨z, ?_⟩
      have e1 : s.take 5 ++ s.drop 5 = s := List.take_append_drop 5 s
      have e2 : (s.drop 5).take 36 ++ (s.drop 5).drop 36 = s.drop 5 := List.take_append_drop 36 _
      rw [List.drop_drop] at e2
      rw [← hu, List.append_assoc, List.append_assoc, hz, e2, e1]
    · cases hm
  · rintro ⟨hu, h, hh, z, hz⟩
    have hl : h.length = 5 := by rcases hh with rfl | rfl <;> rfl
    have hul : u.length = 36 := by
      unfold isUuid at hu
      simp only [Bool.and_eq_true, beq_iff_eq] at hu
      exact hu.1
    have e1 : s.take 5 = h := by
      rw [← hz, List.append_assoc, List.append_assoc, ← hl, List.take_left]
    have e2 : s.drop 5 = u ++ (suffix ++ z) := by
      rw [← hz, List.append_assoc, List.append_assoc, ← hl, List.drop_left]
    have e3 : (s.drop 5).take 36 = u := by
      rw [e2, ← hul, List.take_left]
    have e4 : s.drop 41 = suffix ++ z := by
      have : s.drop 41 = (s.drop 5).drop 36 := by rw [List.drop_drop]
      rw [this, e2, ← hul, List.drop_left]
    unfold refMatch
    rw [e1, e3, e4, if_pos]
    simp only [Bool.and_eq_true, Bool.or_eq_true, beq_iff_eq]
    exact ⟨⟨hh, hu⟩, List.isPrefixOf_iff_prefix.mpr (List.prefix_append _ _)⟩

theorem uuid_chars {u : Text} (h : isUuid u = true) : ∀ c ∈ u, c ≠ 'r' ∧ c ≠ 'R' := by
  intro c hc
  unfold isUuid at h
  simp only [Bool.and_eq_true, List.all_eq_true] at h
  obtain ⟨i, hi, rfl⟩ := List.mem_iff_getElem.mp hc
  have := h.2 (u[i], i) (by rw [List.mem_zipIdx_iff_getElem?]; simp [hi])
  constructor <;> · intro he
                    rw [he] at this
                    revert this
                    simp only
                    split <;> decide

/-- Inside a reference no other reference starts. -/
theorem noStart_ref {suffix h u : Text} (hh : IsRefStart h) (hu : isUuid u = true)
    (hsuf : ∀ v x, v <:+ suffix → v ≠ [] → ¬ (['R', 'e'] <+: v ++ x ∨ ['r', 'e'] <+: v ++ x)) (g : Text) (hg : IsRefStart g) (x : Text) :
    ∀ v, v <:+ (h ++ u ++ suffix).drop 1 → v ≠ [] → ¬ g <+: v ++ x := by
  intro v hv hne hp
  have hg2 : ['R', 'e'] <+: v ++ x ∨ ['r', 'e'] <+: v ++ x := by
    rcases hg with rfl | rfl
    · exact Or.inl (List.IsPrefix.trans ⟨['f', '(', '\''], rfl⟩ hp)
    · exact Or.inr (List.IsPrefix.trans ⟨['f', '(', '\''], rfl⟩ hp)
  have hdrop : (h ++ u ++ suffix).drop 1 = (['e', 'f', '(', '\''] ++ u) ++ suffix := by
    rcases hh with rfl | rfl <;> rfl
  rw [hdrop] at hv
  rcases List.suffix_or_suffix_of_suffix hv (List.suffix_append _ suffix) with h1 | ⟨w, h1⟩
  · exact hsuf v x h1 hne hg2
  · rw [← h1] at hv
    have hw : w <:+ ['e', 'f', '(', '\''] ++ u := ((List.suffix_append_inj_of_length_eq (s₁ := suffix) (s₂ := suffix) rfl).mp hv).1
    cases w with
    | nil =>
      simp at h1
      exact hsuf v x (h1 ▸ List.suffix_refl _) hne hg2
    | cons c w =>
      have hc : c ∈ ['e', 'f', '(', '\''] ++ u := hw.subset (by simp)
      have hcr : c ≠ 'r' ∧ c ≠ 'R' := by
        rcases List.mem_append.mp hc with h | h
        · simp at h
          rcases h with rfl | rfl | rfl | rfl <;> decide
        · exact uuid_chars hu c h
      rw [← h1] at hg2
      rcases hg2 with ⟨z, hz⟩ | ⟨z, hz⟩
      · simp at hz
        exact hcr.2 hz.1.symm
      · simp at hz
        exact hcr.1 hz.1.symm

theorem suffix_enum {s v : Text} (h : v <:+ s) : v ∈ s.tails := (List.mem_tails _ _).mpr h

theorem excSuffix_ok : ∀ v x, v <:+ excSuffix → v ≠ [] → ¬ (['R', 'e'] <+: v ++ x ∨ ['r', 'e'] <+: v ++ x) := by
  intro v x hv hne
  have := suffix_enum hv
  have he : excSuffix.tails = [['\'', ')'], [')'], []] := by decide
  rw [he] at this
  simp at this
  rcases this with rfl | rfl | rfl
  · rintro (⟨z, hz⟩ | ⟨z, hz⟩) <;> simp at hz
  · rintro (⟨z, hz⟩ | ⟨z, hz⟩) <;> simp at hz
  · exact absurd rfl hne

theorem pvSuffix_ok : ∀ v x, v <:+ pvSuffix → v ≠ [] → ¬ (['R', 'e'] <+: v ++ x ∨ ['r', 'e'] <+: v ++ x) := by
  intro v x hv hne
  have h2 : ∀ v ∈ pvSuffix.tails, v ≠ [] → (v.length = 1 ∧ v.head? ≠ some 'R' ∧ v.head? ≠ some 'r') ∨ (2 ≤ v.length ∧ v.take 2 ≠ ['R', 'e'] ∧ v.take 2 ≠ ['r', 'e']) := by
    decide +kernel
  rcases h2 v (suffix_enum hv) hne with ⟨h1, h3, h4⟩ | ⟨h1, h3, h4⟩
  · cases v with
    | nil => exact absurd rfl hne
    | cons c v =>
      rintro (⟨z, hz⟩ | ⟨z, hz⟩)
      · simp at hz; simp at h3; exact h3 hz.1.symm
      · simp at hz; simp at h4; exact h4 hz.1.symm
  · have ht : (v ++ x).take 2 = v.take 2 := List.take_append_of_le_length h1
    rintro (⟨z, hz⟩ | ⟨z, hz⟩)
    · apply h3; rw [← ht, ← hz]; rfl
    · apply h4; rw [← ht, ← hz]; rfl

theorem findRefs_skip (suffix : Text) (k : ℕ) (s : Text) : findRefs suffix k s = findRefs suffix 0 (s.drop k) := by
  induction k generalizing s with
  | zero => rfl
  | succ k ih =>
    cases s with
    | nil => rfl
    | cons c s =>
      rw [List.drop_succ_cons, ← ih]
      conv_lhs => unfold findRefs

theorem mem_findRefs {suffix : Text} (hs0 : suffix ≠ []) (hsuf : ∀ v x, v <:+ suffix → v ≠ [] → ¬ (['R', 'e'] <+: v ++ x ∨ ['r', 'e'] <+: v ++ x))
    (s string u : Text) :
    (string, u) ∈ findRefs suffix 0 s ↔ isUuid u = true ∧ ∃ h, IsRefStart h ∧ string = h ++ u ++ suffix ∧ string <:+: s := by
  generalize hn : s.length = n
  induction n using Nat.strong_induction_on generalizing s with
  | _ n ih =>
    cases s with
    | nil =>
      simp only [findRefs, List.not_mem_nil, false_iff, not_and, not_exists]
      intro _ h hh he hi
      have := List.eq_nil_of_infix_nil hi
      rw [this] at he
      simp at he
      exact hs0 he.2.2
    | cons c s =>
      unfold findRefs
      rcases hm : refMatch suffix (c :: s) with _ | u'
      · simp only
        rw [ih s.length (by simp at hn; omega) s rfl]
        constructor
        · rintro ⟨h1, h, h2, h3, h4⟩
          exact ⟨h1, h, h2, h3, h4.trans (List.suffix_cons c s).isInfix⟩
        · rintro ⟨h1, h, h2, h3, h4⟩
          refine ⟨h1, h, h2, h3, ?_⟩
          rcases List.infix_cons_iff.mp h4 with h5 | h5
          · exfalso
            have := refMatch_some.mpr ⟨h1, h, h2, h3 ▸ h5⟩
            rw [hm] at this
            cases this
          · exact h5
      · simp only
        obtain ⟨hu', g, hg, z, hz⟩ := refMatch_some.mp hm
        have hul : u'.length = 36 := by
          unfold isUuid at hu'
          simp only [Bool.and_eq_true, beq_iff_eq] at hu'
          exact hu'.1
        have hgl : g.length = 5 := by rcases hg with rfl | rfl <;> rfl
        have hlen : (g ++ u' ++ suffix).length = 41 + suffix.length := by
          simp only [List.length_append, hul, hgl]
        have htake : (c :: s).take (41 + suffix.length) = g ++ u' ++ suffix := by rw [← hz, ← hlen, List.take_left]
        have hdrop : s.drop (40 + suffix.length) = z := by
          have : (c :: s).drop (41 + suffix.length) = z := by rw [← hz, ← hlen, List.drop_left]
          rw [show 41 + suffix.length = (40 + suffix.length) + 1 by omega, List.drop_succ_cons] at this
          exact this
        have hs : s = (g ++ u' ++ suffix).drop 1 ++ z := by
          have := congrArg (List.drop 1) hz
          rw [List.drop_append_of_le_length (by omega)] at this
          simpa using this.symm
        rw [findRefs_skip, hdrop, List.mem_cons, htake, ih z.length (by
          have := congrArg List.length hs
          simp at this
          simp at hn
          omega) z rfl]
        constructor
        · rintro (h | ⟨h1, h, h2, h3, h4⟩)
          · have e1 : string = g ++ u' ++ suffix := congrArg Prod.fst h
            have e2 : u = u' := congrArg Prod.snd h
            rw [e1, e2]
            exact ⟨hu', g, hg, rfl, by rw [← hz]; exact (List.prefix_append _ _).isInfix⟩
          · refine ⟨h1, h, h2, h3, h4.trans ?_⟩
            rw [← hz]
            exact (List.suffix_append _ _).isInfix
        · rintro ⟨h1, h, h2, h3, h4⟩
          rcases List.infix_cons_iff.mp h4 with h5 | h5
          · left
            have := refMatch_some.mpr ⟨h1, h, h2, h3 ▸ h5⟩
            rw [hm] at this
            have e2 := Option.some.inj this
            have e3 : string = g ++ u' ++ suffix := by
              have hl2 : h.length = 5 := by rcases h2 with rfl | rfl <;> rfl
              have : string.length = 41 + suffix.length := by rw [h3, ← e2]; simp only [List.length_append, hul, hl2]
              rw [← htake, ← this]
              obtain ⟨y, hy⟩ := h5
              rw [← hy, List.take_left]
            rw [e3, e2]
          · right
            refine ⟨h1, h, h2, h3, ?_⟩
            -- the occurrence lies in z
            obtain ⟨X, Y, hXY⟩ := h5
            rw [hs] at hXY
            rw [List.append_assoc] at hXY
            rcases List.append_eq_append_iff.mp hXY with ⟨W, hW1, hW2⟩ | ⟨W, hW1, hW2⟩
            · cases W with
              | nil => rw [List.nil_append] at hW2; exact ⟨[], Y, by simpa using hW2⟩
              | cons w W =>
                exfalso
                have hv : (w :: W) <:+ (g ++ u' ++ suffix).drop 1 := ⟨X, hW1.symm⟩
                apply noStart_ref hg hu' hsuf h h2 z (w :: W) hv (by simp)
                rw [← hW2, h3]
                simp only [List.append_assoc]
                exact List.prefix_append _ _
            · exact ⟨W, Y, by rw [hW2]; simp⟩

theorem isHex_iff (c : Char) : isHex c = true ↔ c ∈ "0123456789abcdef".toList := by
  have hl : "0123456789abcdef".toList = ['0', '1', '2', '3', '4', '5', '6', '7', '8', '9', 'a', 'b', 'c', 'd', 'e', 'f'] := by decide
  rw [hl]
  unfold isHex
  simp only [Bool.or_eq_true, decide_eq_true_eq, List.mem_cons, List.not_mem_nil, or_false, Char.le_def, Char.ext_iff, UInt32.le_iff_toNat_le, ← UInt32.toNat_inj]
  simp only [Char.reduceVal, UInt32.reduceToNat]
  omega

theorem isUuid_iff (u : Text) : isUuid u = true ↔ Uuid u := by
  unfold isUuid Uuid
  rw [Bool.and_eq_true, beq_iff_eq, List.all_eq_true]
  refine and_congr_right fun _ => ?_
  constructor
  · intro h i c hc
    have := h (c, i) (List.mk_mem_zipIdx_iff_getElem?.mpr hc)
    simp only at this
    by_cases hi : i = 8 ∨ i = 13 ∨ i = 18 ∨ i = 23
    · rw [if_pos hi] at this
      rw [if_pos (by simpa using hi)]
      simpa using this
    · rw [if_neg hi] at this
      rw [if_neg (by simpa using hi)]
      exact (isHex_iff c).mp this
  · rintro h ⟨c, i⟩ hm
    have := h i c (List.mk_mem_zipIdx_iff_getElem?.mp hm)
    simp only
    by_cases hi : i = 8 ∨ i = 13 ∨ i = 18 ∨ i = 23
    · rw [if_pos (by simpa using hi)] at this
      rw [if_pos hi]
      simpa using this
    · rw [if_neg (by simpa using hi)] at this
      rw [if_neg hi]
      exact (isHex_iff c).mpr this

theorem mem_exchangeReferences {f string u : Text} : (string, u) ∈ exchangeReferences f ↔ AmountRef f string u := by
  unfold exchangeReferences AmountRef
  rw [← isUuid_iff]
  rw [mem_findRefs (by decide) excSuffix_ok]
  constructor
  · rintro ⟨h1, h, rfl | rfl, h3, h4⟩
    · exact ⟨h1, Or.inl h3, h4⟩
    · exact ⟨h1, Or.inr h3, h4⟩
  · rintro ⟨h1, h | h, h4⟩
    · exact ⟨h1, _, Or.inl rfl, h, h4⟩
    · exact ⟨h1, _, Or.inr rfl, h, h4⟩

theorem mem_pvReferences {f string u : Text} : (string, u) ∈ pvReferences f ↔ VolumeRef f string u := by
  unfold pvReferences VolumeRef
  rw [← isUuid_iff]
  rw [mem_findRefs (by decide) pvSuffix_ok]
  constructor
  · rintro ⟨h1, h, rfl | rfl, h3, h4⟩
    · exact ⟨h1, Or.inl h3, h4⟩
    · exact ⟨h1, Or.inr h3, h4⟩
  · rintro ⟨h1, h | h, h4⟩
    · exact ⟨h1, _, Or.inl rfl, h, h4⟩
    · exact ⟨h1, _, Or.inr rfl, h, h4⟩

/-! ## Reading and changing objects -/

theorem obj_change (f : NumObj → NumObj) (a b : Addr) (ds : Dataset) :
    (ds.change f a).obj? b = if a = b then (ds.obj? b).map f else ds.obj? b := by
  cases a with
  | exc i =>
    cases b with
    | exc j =>
      simp only [Dataset.change, changeExchange, Dataset.obj?, List.getElem?_modify, Addr.exc.injEq]
      by_cases h : i = j
      · subst h; rcases ds.exchanges[i]? with _ | e <;> simp [onExchange]
      · simp [h]
    | pv j =>
      simp only [Dataset.change, changeExchange, Dataset.obj?, List.getElem?_modify, reduceCtorEq, if_false]
      by_cases h : i = j
      · subst h; rcases ds.exchanges[i]? with _ | e <;> simp [onExchange]
      · simp [h]
    | prop j k =>
      simp only [Dataset.change, changeExchange, Dataset.obj?, List.getElem?_modify, reduceCtorEq, if_false]
      by_cases h : i = j
      · subst h; rcases ds.exchanges[i]? with _ | e <;> simp [onExchange]
      · simp [h]
    | par j => simp [Dataset.change, changeExchange, Dataset.obj?]
  | pv i =>
    cases b with
    | exc j =>
      simp only [Dataset.change, changeExchange, Dataset.obj?, List.getElem?_modify, reduceCtorEq, if_false]
      by_cases h : i = j
      · subst h; rcases ds.exchanges[i]? with _ | e <;> simp [onExchangePv]
      · simp [h]
    | pv j =>
      simp only [Dataset.change, changeExchange, Dataset.obj?, List.getElem?_modify, Addr.pv.injEq]
      by_cases h : i = j
      · subst h
        rcases ds.exchanges[i]? with _ | e
        · simp
        · rcases hp : e.pv with _ | p <;> simp [onExchangePv, hp, onPv]
      · simp [h]
    | prop j k =>
      simp only [Dataset.change, changeExchange, Dataset.obj?, List.getElem?_modify, reduceCtorEq, if_false]
      by_cases h : i = j
      · subst h; rcases ds.exchanges[i]? with _ | e <;> simp [onExchangePv]
      · simp [h]
    | par j => simp [Dataset.change, changeExchange, Dataset.obj?]
  | prop i k =>
    cases b with
    | exc j =>
      simp only [Dataset.change, changeExchange, Dataset.obj?, List.getElem?_modify, reduceCtorEq, if_false]
      by_cases h : i = j
      · subst h; rcases ds.exchanges[i]? with _ | e <;> simp [onExchangeProperty]
      · simp [h]
    | pv j =>
      simp only [Dataset.change, changeExchange, Dataset.obj?, List.getElem?_modify, reduceCtorEq, if_false]
      by_cases h : i = j
      · subst h; rcases ds.exchanges[i]? with _ | e <;> simp [onExchangeProperty]
      · simp [h]
    | prop j k' =>
      simp only [Dataset.change, changeExchange, Dataset.obj?, List.getElem?_modify, Addr.prop.injEq]
      by_cases h : i = j
      · subst h
        rcases ds.exchanges[i]? with _ | e
        · simp
        · by_cases hk : k = k'
          · subst hk
            rcases hp : e.properties[k]? with _ | p <;> simp [onExchangeProperty, hp, onProperty]
          · simp [onExchangeProperty, hk]
      · simp [h]
    | par j => simp [Dataset.change, changeExchange, Dataset.obj?]
  | par i =>
    cases b with
    | exc j => simp [Dataset.change, Dataset.obj?]
    | pv j => simp [Dataset.change, Dataset.obj?]
    | prop j k => simp [Dataset.change, Dataset.obj?]
    | par j =>
      simp only [Dataset.change, Dataset.obj?, List.getElem?_modify, Addr.par.injEq]
      by_cases h : i = j
      · subst h; rcases ds.parameters[i]? with _ | p <;> simp [onParam]
      · simp [h]

/-- The object without variable and formula. -/
def Spec.bare (o : NumObj) : NumObj := { o with var := none, formula := none }

/-- An exchange without variables and formulas. -/
def Spec.bareExchange (e : Exchange) : Exchange :=
  { e with toNumObj := bare e.toNumObj, pv := e.pv.map (onPv bare), properties := e.properties.map (onProperty bare) }

/-- Everything of a dataset except variables and formulas. -/
def Spec.bareDataset (ds : Dataset) : Dataset :=
  { ds with exchanges := ds.exchanges.map bareExchange, parameters := ds.parameters.map (onParam bare) }

theorem map_modify_eq {α β : Type} {g : α → β} {f : α → α} (h : ∀ x, g (f x) = g x) (i : ℕ) (l : List α) : (l.modify i f).map g = l.map g := by
  apply List.ext_getElem?
  intro j
  rw [List.getElem?_map, List.getElem?_map, List.getElem?_modify]
  split
  · rcases l[j]? with _ | a <;> simp [h]
  · rcases l[j]? with _ | a <;> rfl

theorem bare_change {f : NumObj → NumObj} (hf : ∀ o, bare (f o) = bare o) (a : Addr) (ds : Dataset) : bareDataset (ds.change f a) = bareDataset ds := by
  cases a with
  | exc i =>
    unfold Dataset.change changeExchange bareDataset
    simp only
    rw [map_modify_eq]
    intro e
    unfold bareExchange onExchange
    simp only [hf]
  | pv i =>
    unfold Dataset.change changeExchange bareDataset
    simp only
    rw [map_modify_eq]
    intro e
    unfold bareExchange onExchangePv
    simp only [Option.map_map]
    congr 2
    funext p
    simp only [Function.comp, onPv, hf]
  | prop i j =>
    unfold Dataset.change changeExchange bareDataset
    simp only
    rw [map_modify_eq]
    intro e
    unfold bareExchange onExchangeProperty
    simp only
    congr 1
    apply map_modify_eq
    intro p
    simp only [onProperty, hf]
  | par i =>
    unfold Dataset.change bareDataset
    simp only
    rw [map_modify_eq]
    intro p
    simp only [onParam, hf]

theorem findIdx?_map_congr {α β : Type} (g : α → β) (p : β → Bool) (l : List α) : (l.map g).findIdx? p = l.findIdx? (fun a => p (g a)) := by
  induction l with
  | nil => rfl
  | cons a l ih => simp only [List.map_cons, List.findIdx?_cons, ih]

theorem findById_bare (ds : Dataset) (u : Text) : findById (bareDataset ds) u = findById ds u := by
  unfold findById bareDataset
  simp only [findIdx?_map_congr]
  rfl

theorem findPvById_bare (ds : Dataset) (u : Text) : findPvById (bareDataset ds) u = findPvById ds u := by
  unfold findPvById bareDataset
  simp only [findIdx?_map_congr]
  have h : ∀ i : ℕ, ((ds.exchanges.map bareExchange)[i]?.bind fun x : Exchange => x.pv).isSome = (ds.exchanges[i]?.bind fun x : Exchange => x.pv).isSome := by
    intro i
    rw [List.getElem?_map]
    rcases ds.exchanges[i]? with _ | e
    · rfl
    · simp [bareExchange]
  simp only [h]
  rfl


theorem findIdx_firstWith {α : Type} {P : α → Prop} [DecidablePred P] {l : List α} {i : ℕ} :
    l.findIdx? (fun a => decide (P a)) = some i ↔ FirstWith P l i := by
  rw [List.findIdx?_eq_some_iff_getElem]
  constructor
  · rintro ⟨h, h1, h2⟩
    refine ⟨⟨l[i], by simp [h], by simpa using h1⟩, ?_⟩
    intro j x hj hx hP
    have := h2 j hj
    rw [List.getElem?_eq_getElem (by omega)] at hx
    have hx := Option.some.inj hx
    rw [hx] at this
    simp [hP] at this
  · rintro ⟨⟨x, hx, hP⟩, h2⟩
    obtain ⟨h, hx'⟩ := List.getElem?_eq_some_iff.mp hx
    refine ⟨h, by rw [hx']; simpa using hP, ?_⟩
    intro j hj
    simpa using h2 j _ hj (List.getElem?_eq_getElem (by omega))

theorem findById_ok {ds : Dataset} {u : Text} {a : Addr} : findById ds u = .ok a ↔ AmountOf ds u a := by
  unfold findById AmountOf
  split
  · next i h =>
    simp only [Except.ok.injEq]
    have hfi := findIdx_firstWith.mp h
    constructor
    · rintro rfl
      exact Or.inl ⟨i, rfl, hfi⟩
    · rintro (⟨j, rfl, hf⟩ | ⟨hno, -⟩)
      · have := h.symm.trans (findIdx_firstWith.mpr hf)
        cases this
        rfl
      · obtain ⟨⟨x, hx, hP⟩, -⟩ := hfi
        exact absurd hP (hno x (List.mem_of_getElem? hx))
  · next h =>
    have hno : ∀ e ∈ ds.exchanges, e.id.toList ≠ u := by
      intro e he
      have := List.findIdx?_eq_none_iff.mp h e he
      simpa using this
    split
    · next i h2 =>
      simp only [Except.ok.injEq]
      constructor
      · rintro rfl
        exact Or.inr ⟨hno, i, rfl, findIdx_firstWith.mp h2⟩
      · rintro (⟨j, rfl, hf⟩ | ⟨-, j, rfl, hf⟩)
        · have := h.symm.trans (findIdx_firstWith.mpr hf)
          cases this
        · have := h2.symm.trans (findIdx_firstWith.mpr hf)
          cases this
          rfl
    · next h2 =>
      simp only [reduceCtorEq, false_iff, not_or, not_exists, not_and]
      refine ⟨?_, ?_⟩
      · intro i _ hf
        have := h.symm.trans (findIdx_firstWith.mpr hf)
        cases this
      · intro _ i _ hf
        have := h2.symm.trans (findIdx_firstWith.mpr hf)
        cases this

theorem obj_pv_isSome (ds : Dataset) (i : ℕ) : (ds.obj? (.pv i)).isSome = (ds.exchanges[i]?.bind (·.pv)).isSome := by
  show (ds.exchanges[i]?.bind fun e => e.pv.map PV.toNumObj).isSome = _
  rcases ds.exchanges[i]? with _ | e
  · rfl
  · simp

theorem findPvById_ok {ds : Dataset} {u : Text} {a : Addr} : findPvById ds u = .ok a ↔ VolumeOf ds u a := by
  unfold findPvById VolumeOf
  split
  · next i h =>
    rw [← obj_pv_isSome]
    split
    · next hs =>
      simp only [Except.ok.injEq]
      constructor
      · rintro rfl
        exact ⟨i, rfl, findIdx_firstWith.mp h, hs⟩
      · rintro ⟨j, rfl, hf, -⟩
        have := h.symm.trans (findIdx_firstWith.mpr hf)
        cases this
        rfl
    · next hs =>
      simp only [reduceCtorEq, false_iff, not_exists, not_and]
      rintro j _ hf h2
      have := h.symm.trans (findIdx_firstWith.mpr hf)
      cases this
      exact hs h2
  · next h =>
    simp only [reduceCtorEq, false_iff, not_exists, not_and]
    intro i _ hf
    have := h.symm.trans (findIdx_firstWith.mpr hf)
    cases this

theorem amountOf_obj {ds : Dataset} {u : Text} {a : Addr} (h : AmountOf ds u a) : (ds.obj? a).isSome = true := by
  rcases h with ⟨i, rfl, ⟨x, hx, -⟩, -⟩ | ⟨-, i, rfl, ⟨x, hx, -⟩, -⟩ <;> simp [Dataset.obj?, hx]

theorem nameFromId_of {start u : Text} {id : Option String} {x : String} (hx : id = some x) (hu : x.toList = u) :
    String.ofList (start ++ withoutDashes u) = nameFromId start id := by
  subst hx
  subst hu
  rfl

theorem amountOf_name {ds : Dataset} {u : Text} {a : Addr} (h : AmountOf ds u a) : excName u = newName ds a := by
  rcases h with ⟨i, rfl, ⟨x, hx, hP⟩, -⟩ | ⟨-, i, rfl, ⟨x, hx, hP⟩, -⟩
  · exact nameFromId_of (by rw [hx]; rfl) hP
  · exact nameFromId_of (by rw [hx]; rfl) hP

theorem volumeOf_name {ds : Dataset} {u : Text} {a : Addr} (h : VolumeOf ds u a) : pvName u = newName ds a := by
  obtain ⟨i, rfl, ⟨⟨x, hx, hP⟩, -⟩, -⟩ := h
  exact nameFromId_of (by rw [hx]; rfl) hP

/-! ## One reference -/

theorem varAt_change_var (v : String) (a b : Addr) (ds : Dataset) (ha : (ds.obj? a).isSome = true) :
    (ds.change (setVar v) a).varAt b = if b = a then some v else ds.varAt b := by
  unfold Dataset.varAt
  rw [obj_change]
  by_cases h : a = b
  · subst h
    obtain ⟨o, ho⟩ := Option.isSome_iff_exists.mp ha
    simp [ho, setVar]
  · rw [if_neg h, if_neg (Ne.symm h)]

theorem formulaAt_change_var (v : String) (a b : Addr) (ds : Dataset) : (ds.change (setVar v) a).formulaAt b = ds.formulaAt b := by
  unfold Dataset.formulaAt
  rw [obj_change]
  by_cases h : a = b
  · subst h
    rw [if_pos rfl]
    rcases ds.obj? a with _ | o <;> simp [setVar]
  · rw [if_neg h]

theorem varAt_change_formula (t : Text) (v : String) (a b : Addr) (ds : Dataset) : (ds.change (replaceInFormula t v) a).varAt b = ds.varAt b := by
  unfold Dataset.varAt
  rw [obj_change]
  by_cases h : a = b
  · subst h
    rw [if_pos rfl]
    rcases ds.obj? a with _ | o <;> simp [replaceInFormula]
  · rw [if_neg h]

theorem formulaAt_change_formula (t : Text) (v : String) (a b : Addr) (ds : Dataset) :
    (ds.change (replaceInFormula t v) a).formulaAt b =
      if b = a then (ds.formulaAt b).map (fun f => String.ofList (replaceAll t v.toList f.toList)) else ds.formulaAt b := by
  unfold Dataset.formulaAt
  rw [obj_change]
  by_cases h : a = b
  · subst h
    rw [if_pos rfl, if_pos rfl]
    rcases ds.obj? a with _ | o <;> simp [replaceInFormula]
  · rw [if_neg h, if_neg (Ne.symm h)]

/-- What is used of a way to find the referenced objects. -/
structure Finder (find : Dataset → Text → Except Err Addr) : Prop where
  bare : ∀ ds ds' u, bareDataset ds = bareDataset ds' → find ds u = find ds' u
  obj : ∀ ds u a, find ds u = .ok a → (ds.obj? a).isSome = true
  err : ∀ ds u e, find ds u = .error e → e = .valueError

theorem finder_amount : Finder findById where
  bare ds ds' u h := by rw [← findById_bare ds, h, findById_bare]
  obj ds u a h := amountOf_obj (findById_ok.mp h)
  err ds u e h := by
    unfold findById at h
    split at h
    · cases h
    · split at h <;> cases h
      rfl

theorem finder_volume : Finder findPvById where
  bare ds ds' u h := by rw [← findPvById_bare ds, h, findPvById_bare]
  obj ds u a h := by
    obtain ⟨i, rfl, -, hs⟩ := findPvById_ok.mp h
    exact hs
  err ds u e h := by
    unfold findPvById at h
    split at h
    · split at h
      · cases h
      · cases h; rfl
    · cases h; rfl

theorem replaceReference_ok {find : Dataset → Text → Except Err Addr} (hF : Finder find) {name : Text → String} {a : Addr} {s s' : Dataset} {r : Text × Text}
    (h : replaceReference find name a s r = .ok s') :
    ∃ tgt v, find s r.2 = .ok tgt ∧ (s.varAt tgt = some v ∨ s.varAt tgt = none ∧ v = name r.2) ∧
      (∀ b, s'.varAt b = if b = tgt then some v else s.varAt b) ∧
      (∀ b, s'.formulaAt b = if b = a then (s.formulaAt b).map (fun f => String.ofList (replaceAll r.1 v.toList f.toList)) else s.formulaAt b) ∧
      bareDataset s' = bareDataset s := by
  unfold replaceReference at h
  obtain ⟨tgt, h1, h2⟩ := bind_eq_ok.mp h
  cases h2
  have hobj := hF.obj _ _ _ h1
  refine ⟨tgt, (giveVariable (name r.2) tgt s).1, h1, ?_⟩
  unfold giveVariable
  rcases hv : s.varAt tgt with _ | v
  · simp only
    refine ⟨Or.inr ⟨trivial, trivial⟩, ?_, ?_, ?_⟩
    · intro b
      rw [varAt_change_formula, varAt_change_var _ _ _ _ hobj]
    · intro b
      rw [formulaAt_change_formula, formulaAt_change_var]
    · rw [bare_change (f := replaceInFormula r.1 (name r.2)) (fun _ => rfl), bare_change (f := setVar (name r.2)) (fun _ => rfl)]
  · simp only
    refine ⟨Or.inl trivial, ?_, ?_, ?_⟩
    · intro b
      rw [varAt_change_formula]
      split
      · next h => rw [h, hv]
      · rfl
    · intro b
      rw [formulaAt_change_formula]
    · rw [bare_change (f := replaceInFormula r.1 v) (fun _ => rfl)]

/-- The variable that `find` leads to. -/
def nameOf (find : Dataset → Text → Except Err Addr) (ds out : Dataset) (u : Text) : String :=
  match find ds u with
  | .ok b => (out.varAt b).getD ""
  | .error _ => ""

/-- The references replaced one after the other. -/
def substRefs (σ : Text → String) (R : List (Text × Text)) (f : Text) : Text := R.foldl (fun g r => replaceAll r.1 (σ r.2).toList g) f

theorem substRefs_congr {σ τ : Text → String} {R : List (Text × Text)} (h : ∀ r ∈ R, σ r.2 = τ r.2) (f : Text) : substRefs σ R f = substRefs τ R f := by
  unfold substRefs
  induction R generalizing f with
  | nil => rfl
  | cons r R ih =>
    rw [List.foldl_cons, List.foldl_cons, h r (by simp)]
    exact ih (fun r hr => h r (by simp [hr])) _

theorem nameOf_congr {find : Dataset → Text → Except Err Addr} {ds s s' : Dataset} {u : Text} (h : ∃ b v, find ds u = .ok b ∧ s.varAt b = some v ∧ s'.varAt b = some v) :
    nameOf find ds s u = nameOf find ds s' u := by
  obtain ⟨b, v, h1, h2, h3⟩ := h
  simp only [nameOf, h1, h2, h3]

theorem references_fold {find : Dataset → Text → Except Err Addr} (hF : Finder find) {name : Text → String} {a : Addr} {s t : Dataset} {R : List (Text × Text)}
    (h : foldE (replaceReference find name a) s R = .ok t) :
    bareDataset t = bareDataset s ∧
    (∀ b, b ≠ a → t.formulaAt b = s.formulaAt b) ∧
    t.formulaAt a = (s.formulaAt a).map (fun f => String.ofList (substRefs (nameOf find s t) R f.toList)) ∧
    (∀ r ∈ R, ∃ b v, find s r.2 = .ok b ∧ t.varAt b = some v) ∧
    (∀ b, t.varAt b = s.varAt b ∨ s.varAt b = none ∧ ∃ r ∈ R, find s r.2 = .ok b ∧ t.varAt b = some (name r.2)) := by
  refine foldE_inv (I := fun pre t => bareDataset t = bareDataset s ∧
    (∀ b, b ≠ a → t.formulaAt b = s.formulaAt b) ∧
    t.formulaAt a = (s.formulaAt a).map (fun f => String.ofList (substRefs (nameOf find s t) pre f.toList)) ∧
    (∀ r ∈ pre, ∃ b v, find s r.2 = .ok b ∧ t.varAt b = some v) ∧
    (∀ b, t.varAt b = s.varAt b ∨ s.varAt b = none ∧ ∃ r ∈ pre, find s r.2 = .ok b ∧ t.varAt b = some (name r.2))) h ?_ ?_
  · refine ⟨rfl, fun _ _ => rfl, ?_, by simp, fun b => Or.inl rfl⟩
    simp [substRefs, String.ofList_toList]
  · rintro pre r m m' - ⟨i1, i2, i3, i4, i5⟩ hstep
    obtain ⟨tgt, v, g1, g2, g3, g4, g5⟩ := replaceReference_ok hF hstep
    rw [hF.bare m s _ i1] at g1
    have hgrow : ∀ b w, m.varAt b = some w → m'.varAt b = some w := by
      intro b w hb
      rw [g3]
      split
      · next he =>
        subst he
        rcases g2 with g2 | ⟨g2, -⟩
        · rw [g2] at hb; exact hb
        · rw [g2] at hb; cases hb
      · exact hb
    refine ⟨by rw [g5, i1], ?_, ?_, ?_, ?_⟩
    · intro b hb
      rw [g4, if_neg hb, i2 b hb]
    · rw [g4, if_pos rfl, i3]
      rcases s.formulaAt a with _ | f
      · rfl
      · simp only [Option.map_some, String.toList_ofList]
        congr 2
        have e1 : substRefs (nameOf find s m) pre f.toList = substRefs (nameOf find s m') pre f.toList := by
          apply substRefs_congr
          intro q hq
          obtain ⟨b, w, h1, h2⟩ := i4 q hq
          exact nameOf_congr ⟨b, w, h1, h2, hgrow b w h2⟩
        have e2 : nameOf find s m' r.2 = v := by
          simp only [nameOf, g1, g3, if_true, Option.getD_some]
        rw [e1]
        simp only [substRefs, List.foldl_append, List.foldl_cons, List.foldl_nil, e2]
    · intro q hq
      rcases List.mem_append.mp hq with hq | hq
      · obtain ⟨b, w, h1, h2⟩ := i4 q hq
        exact ⟨b, w, h1, hgrow b w h2⟩
      · simp at hq
        subst hq
        exact ⟨tgt, v, g1, by rw [g3, if_pos rfl]⟩
    · intro b
      by_cases hb : b = tgt
      · subst hb
        rcases i5 b with h | ⟨h, q, hq, h1, h2⟩
        · rcases g2 with g2 | ⟨g2, rfl⟩
          · left
            rw [g3, if_pos rfl, ← h, g2]
          · right
            refine ⟨by rw [← h, g2], r, by simp, g1, by rw [g3, if_pos rfl]⟩
        · right
          exact ⟨h, q, by simp [hq], h1, hgrow _ _ h2⟩
      · rcases i5 b with h | ⟨h, q, hq, h1, h2⟩
        · left
          rw [g3, if_neg hb, h]
        · right
          exact ⟨h, q, by simp [hq], h1, hgrow _ _ h2⟩


/-! ## The addresses -/

theorem mem_exchange_addrs {i : ℕ} {e : Exchange} {a : Addr} : a ∈ e.addrs i ↔
    a = .exc i ∨ (a = .pv i ∧ e.pv.isSome = true) ∨ ∃ j, a = .prop i j ∧ j < e.properties.length := by
  unfold Exchange.addrs
  simp only [List.mem_cons, List.mem_append, List.mem_map, List.mem_range]
  constructor
  · rintro (rfl | ⟨p, hp, rfl⟩ | ⟨j, hj, rfl⟩)
    · exact Or.inl rfl
    · refine Or.inr (Or.inl ⟨rfl, ?_⟩)
      rcases hpv : e.pv with _ | q
      · rw [hpv] at hp; simp at hp
      · rfl
    · exact Or.inr (Or.inr ⟨j, rfl, hj⟩)
  · rintro (rfl | ⟨rfl, hp⟩ | ⟨j, rfl, hj⟩)
    · exact Or.inl rfl
    · right; left
      obtain ⟨q, hq⟩ := Option.isSome_iff_exists.mp hp
      exact ⟨q, by rw [hq]; simp, rfl⟩
    · exact Or.inr (Or.inr ⟨j, hj, rfl⟩)

theorem exchange_addrs_nodup (i : ℕ) (e : Exchange) : (e.addrs i).Nodup := by
  unfold Exchange.addrs
  rw [List.nodup_cons]
  constructor
  · simp
  · rw [List.nodup_append]
    refine ⟨?_, ?_, ?_⟩
    · rcases e.pv with _ | p <;> simp
    · apply List.Nodup.map _ List.nodup_range
      intro j k h
      cases h
      rfl
    · intro a ha b hb hab
      obtain ⟨p, -, rfl⟩ := List.mem_map.mp ha
      obtain ⟨j, -, rfl⟩ := List.mem_map.mp hb
      cases hab

theorem addrs_nodup (ds : Dataset) : ds.addrs.Nodup := by
  unfold Dataset.addrs
  rw [List.nodup_append]
  refine ⟨?_, ?_, ?_⟩
  · rw [List.nodup_flatMap]
    refine ⟨fun p _ => exchange_addrs_nodup _ _, ?_⟩
    have hnd : (ds.exchanges.zipIdx.map Prod.snd).Pairwise (· ≠ ·) := by
      rw [List.zipIdx_map_snd]
      exact List.nodup_range'
    refine (List.pairwise_map.mp hnd).imp ?_
    intro p q hpq a ha hb
    have ha := mem_exchange_addrs.mp ha
    have hb := mem_exchange_addrs.mp hb
    rcases ha with rfl | ⟨rfl, -⟩ | ⟨j, rfl, -⟩ <;> rcases hb with h | ⟨h, -⟩ | ⟨k, h, -⟩ <;> simp [hpq] at h
  · apply List.Nodup.map _ List.nodup_range
    intro j k h
    cases h
    rfl
  · intro a ha b hb hab
    obtain ⟨j, -, rfl⟩ := List.mem_map.mp hb
    obtain ⟨p, -, ha⟩ := List.mem_flatMap.mp ha
    subst hab
    rcases mem_exchange_addrs.mp ha with h | ⟨h, -⟩ | ⟨j, h, -⟩ <;> cases h

theorem mem_addrs {ds : Dataset} {a : Addr} (h : (ds.obj? a).isSome = true) : a ∈ ds.addrs := by
  have hex : ∀ {i : ℕ} {e : Exchange}, ds.exchanges[i]? = some e → a ∈ e.addrs i → a ∈ ds.addrs := by
    intro i e he ha
    unfold Dataset.addrs
    rw [List.mem_append]
    left
    exact List.mem_flatMap.mpr ⟨(e, i), List.mem_zipIdx_iff_getElem?.mpr he, ha⟩
  cases a with
  | exc i =>
    rcases he : ds.exchanges[i]? with _ | e
    · simp [Dataset.obj?, he] at h
    · exact hex he (mem_exchange_addrs.mpr (Or.inl rfl))
  | pv i =>
    rcases he : ds.exchanges[i]? with _ | e
    · simp [Dataset.obj?, he] at h
    · refine hex he (mem_exchange_addrs.mpr (Or.inr (Or.inl ⟨rfl, ?_⟩)))
      simpa [Dataset.obj?, he] using h
  | prop i j =>
    rcases he : ds.exchanges[i]? with _ | e
    · simp [Dataset.obj?, he] at h
    · refine hex he (mem_exchange_addrs.mpr (Or.inr (Or.inr ⟨j, rfl, ?_⟩)))
      simpa [Dataset.obj?, he] using h
  | par i =>
    unfold Dataset.addrs
    rw [List.mem_append]
    right
    refine List.mem_map.mpr ⟨i, ?_, rfl⟩
    simpa [Dataset.obj?] using h

/-! ## All objects -/

theorem Spec.AmountOf.unique {ds : Dataset} {u : Text} {a b : Addr} (h : AmountOf ds u a) (h' : AmountOf ds u b) : a = b := by
  have := (findById_ok.mpr h).symm.trans (findById_ok.mpr h')
  exact Except.ok.inj this

theorem Spec.VolumeOf.unique {ds : Dataset} {u : Text} {a b : Addr} (h : VolumeOf ds u a) (h' : VolumeOf ds u b) : a = b := by
  have := (findPvById_ok.mpr h).symm.trans (findPvById_ok.mpr h')
  exact Except.ok.inj this

theorem Spec.AmountsReplaced.mono {ds s s' : Dataset} {f g : Text} (hg : ∀ b v, s.varAt b = some v → s'.varAt b = some v) (h : AmountsReplaced ds s f g) :
    AmountsReplaced ds s' f g := by
  obtain ⟨σ, h1, h2⟩ := h
  refine ⟨σ, ?_, h2⟩
  intro string u hr
  obtain ⟨b, hb, hv⟩ := h1 string u hr
  exact ⟨b, hb, hg b _ hv⟩

theorem Spec.VolumesReplaced.mono {ds s s' : Dataset} {f g : Text} (hg : ∀ b v, s.varAt b = some v → s'.varAt b = some v) (h : VolumesReplaced ds s f g) :
    VolumesReplaced ds s' f g := by
  obtain ⟨σ, h1, h2⟩ := h
  refine ⟨σ, ?_, h2⟩
  intro string u hr
  obtain ⟨b, hb, hv⟩ := h1 string u hr
  exact ⟨b, hb, hg b _ hv⟩

theorem Spec.AmountsReplaced.unique {ds s : Dataset} {f g g' : Text} (h : AmountsReplaced ds s f g) (h' : AmountsReplaced ds s f g') : g = g' := by
  obtain ⟨σ, h1, rfl⟩ := h
  obtain ⟨τ, h2, rfl⟩ := h'
  apply substRefs_congr
  intro r hr
  have hr' : AmountRef f r.1 r.2 := mem_exchangeReferences.mp hr
  obtain ⟨b, hb, hv⟩ := h1 _ _ hr'
  obtain ⟨c, hc, hw⟩ := h2 _ _ hr'
  rw [hb.unique hc, hw] at hv
  exact (Option.some.inj hv).symm

theorem Spec.RefersTo.mono {ds s s' : Dataset} {b a : Addr} (hg : ∀ b v, s.varAt b = some v → s'.varAt b = some v) (h : RefersTo ds s b a) : RefersTo ds s' b a := by
  obtain ⟨f, g, h1, h2, h3⟩ := h
  exact ⟨f, g, h1, h2.mono hg, h3⟩

theorem replaceReferencesAt_ok {ds s t : Dataset} {a : Addr} (hbare : bareDataset s = bareDataset ds) (hform : s.formulaAt a = ds.formulaAt a)
    (h : replaceReferencesAt s a = .ok t) :
    bareDataset t = bareDataset ds ∧ (∀ b, b ≠ a → t.formulaAt b = s.formulaAt b) ∧
    (∀ b, t.varAt b = s.varAt b ∨ s.varAt b = none ∧ t.varAt b = some (newName ds b) ∧ RefersTo ds t a b) ∧
    (ds.formulaAt a = none → t.formulaAt a = none) ∧
    (∀ f, ds.formulaAt a = some f → ∃ f1 f2, AmountsReplaced ds t f.toList f1 ∧ VolumesReplaced ds t f1 f2 ∧ t.formulaAt a = some (String.ofList f2)) := by
  unfold replaceReferencesAt at h
  obtain ⟨m, h1, h2⟩ := bind_eq_ok.mp h
  obtain ⟨a1, a2, a3, a4, a5⟩ := references_fold finder_amount h1
  obtain ⟨b1, b2, b3, b4, b5⟩ := references_fold finder_volume h2
  have hfa : ∀ u, findById s u = findById ds u := fun u => finder_amount.bare _ _ u hbare
  have hfv : ∀ u, findPvById m u = findPvById ds u := fun u => finder_volume.bare _ _ u (a1.trans hbare)
  have hgrow : ∀ b v, m.varAt b = some v → t.varAt b = some v := by
    intro b v hv
    rcases b5 b with h | ⟨h, -⟩
    · rw [h, hv]
    · rw [h] at hv; cases hv
  -- the formula
  have hformula : ∀ f, ds.formulaAt a = some f → ∃ f1 f2, AmountsReplaced ds t f.toList f1 ∧ VolumesReplaced ds t f1 f2 ∧
      t.formulaAt a = some (String.ofList f2) ∧ m.formulaAt a = some (String.ofList f1) := by
    intro f hf
    rw [hform, hf] at a3
    have r1 : referencesAt exchangeReferences s a = exchangeReferences f.toList := by
      unfold referencesAt
      rw [hform, hf]
    rw [r1] at a3 a4
    rw [Option.map_some] at a3
    rw [a3] at b3
    have r2 : referencesAt pvReferences m a = pvReferences (substRefs (nameOf findById s m) (exchangeReferences f.toList) f.toList) := by
      unfold referencesAt
      rw [a3]
      simp only [String.toList_ofList]
    rw [r2] at b3 b4
    rw [Option.map_some, String.toList_ofList] at b3
    refine ⟨_, _, ⟨nameOf findById s m, ?_, rfl⟩, ⟨nameOf findPvById m t, ?_, rfl⟩, b3, a3⟩
    · intro string u hr
      obtain ⟨b, v, hb, hv⟩ := a4 (string, u) (mem_exchangeReferences.mpr hr)
      refine ⟨b, findById_ok.mp (by rw [← hfa]; exact hb), ?_⟩
      simp only [nameOf, hb, hv, Option.getD_some]
      exact hgrow b v hv
    · intro string u hr
      obtain ⟨b, v, hb, hv⟩ := b4 (string, u) (mem_pvReferences.mpr hr)
      refine ⟨b, findPvById_ok.mp (by rw [← hfv]; exact hb), ?_⟩
      simp only [nameOf, hb, hv, Option.getD_some]
  refine ⟨by rw [b1, a1, hbare], ?_, ?_, ?_, ?_⟩
  · intro b hb
    rw [b2 b hb, a2 b hb]
  · intro b
    have hnoref : ds.formulaAt a = none → t.varAt b = s.varAt b := by
      intro hn
      have r1 : referencesAt exchangeReferences s a = [] := by unfold referencesAt; rw [hform, hn]
      have hmn : m.formulaAt a = none := by rw [a3, hform, hn]; rfl
      have r2 : referencesAt pvReferences m a = [] := by unfold referencesAt; rw [hmn]
      rw [r1] at a5
      rw [r2] at b5
      rcases b5 b with h | ⟨-, r, hr, -⟩
      · rcases a5 b with h' | ⟨-, r, hr, -⟩
        · rw [h, h']
        · cases hr
      · cases hr
    rcases hf : ds.formulaAt a with _ | f
    · exact Or.inl (hnoref hf)
    · obtain ⟨f1, f2, g1, g2, g3, g4⟩ := hformula f hf
      have r1 : referencesAt exchangeReferences s a = exchangeReferences f.toList := by
        unfold referencesAt
        rw [hform, hf]
      have r2 : referencesAt pvReferences m a = pvReferences f1 := by
        unfold referencesAt
        rw [g4]
        simp only [String.toList_ofList]
      rw [r1] at a5
      rw [r2] at b5
      rcases b5 b with h | ⟨h, ⟨string, u⟩, hr, hb, hv⟩
      · rcases a5 b with h' | ⟨h', ⟨string, u⟩, hr, hb, hv⟩
        · exact Or.inl (by rw [h, h'])
        · right
          have hof : AmountOf ds u b := findById_ok.mp (by rw [← hfa]; exact hb)
          refine ⟨h', by rw [h, hv, ← amountOf_name hof], f, f1, hf, g1, Or.inl ⟨string, u, mem_exchangeReferences.mp hr, hof⟩⟩
      · right
        have hof : VolumeOf ds u b := findPvById_ok.mp (by rw [← hfv]; exact hb)
        refine ⟨?_, by rw [hv, ← volumeOf_name hof], f, f1, hf, g1, Or.inr ⟨string, u, mem_pvReferences.mp hr, hof⟩⟩
        rcases a5 b with h' | ⟨h', -⟩
        · rw [← h', h]
        · exact h'
  · intro hn
    rw [b3, a3, hform, hn]
    rfl
  · intro f hf
    obtain ⟨f1, f2, g1, g2, g3, -⟩ := hformula f hf
    exact ⟨f1, f2, g1, g2, g3⟩

/-- C57: if `replace_implicit_references` succeeds, then
* nothing but variables and formulas changed;
* no existing variable name changed;
* an object without variable gets one exactly if some formula refers to it, and its name is made from its id;
* in every formula, every reference is replaced by the variable that the referenced object has afterwards (so two references to
  the same object are replaced by the same variable), and nothing else happens to formulas. -/
theorem C57_references {ds out : Dataset} (h : replaceImplicitReferences ds = .ok out) :
    bareDataset out = bareDataset ds ∧
    (∀ a v, ds.varAt a = some v → out.varAt a = some v) ∧
    (∀ a, ds.varAt a = none → ((∃ b, RefersTo ds out b a) → out.varAt a = some (newName ds a)) ∧ ((¬ ∃ b, RefersTo ds out b a) → out.varAt a = none)) ∧
    (∀ a, ds.formulaAt a = none → out.formulaAt a = none) ∧
    ∀ a f, ds.formulaAt a = some f → ∃ g g', AmountsReplaced ds out f.toList g ∧ VolumesReplaced ds out g g' ∧ out.formulaAt a = some (String.ofList g') := by
  have hinv := foldE_inv' (I := fun pre st => bareDataset st = bareDataset ds ∧
    (∀ a, st.varAt a = ds.varAt a ∨ ds.varAt a = none ∧ st.varAt a = some (newName ds a) ∧ ∃ b, RefersTo ds st b a) ∧
    (∀ a, a ∉ pre → st.formulaAt a = ds.formulaAt a) ∧
    (∀ a ∈ pre, ds.formulaAt a = none → st.formulaAt a = none) ∧
    ∀ a ∈ pre, ∀ f, ds.formulaAt a = some f → ∃ g g', AmountsReplaced ds st f.toList g ∧ VolumesReplaced ds st g g' ∧ st.formulaAt a = some (String.ofList g')) h
    ⟨rfl, fun _ => Or.inl rfl, fun _ _ => rfl, by simp, by simp⟩ (by
    rintro pre a post s t hl ⟨i1, i2, i3, i4, i5⟩ hstep
    have hnd := addrs_nodup ds
    rw [hl] at hnd
    have hnot : a ∉ pre := by
      intro hm
      exact (List.nodup_append.mp hnd).2.2 a hm a (by simp) rfl
    obtain ⟨k1, k2, k3, k4, k5⟩ := replaceReferencesAt_ok i1 (i3 a hnot) hstep
    have hgrow : ∀ b v, s.varAt b = some v → t.varAt b = some v := by
      intro b v hv
      rcases k3 b with h | ⟨h, -⟩
      · rw [h, hv]
      · rw [h] at hv; cases hv
    refine ⟨k1, ?_, ?_, ?_, ?_⟩
    · intro b
      rcases k3 b with h | ⟨h, hn, hr⟩
      · rcases i2 b with h' | ⟨h1, h2, c, h3⟩
        · exact Or.inl (by rw [h, h'])
        · exact Or.inr ⟨h1, by rw [h, h2], c, h3.mono hgrow⟩
      · rcases i2 b with h' | ⟨h1, h2, -⟩
        · exact Or.inr ⟨by rw [← h', h], hn, a, hr⟩
        · rw [h2] at h; cases h
    · intro b hb
      simp only [List.mem_append, List.mem_singleton, not_or] at hb
      rw [k2 b hb.2, i3 b hb.1]
    · intro b hb hn
      by_cases hba : b = a
      · subst hba; exact k4 hn
      · rw [k2 b hba]
        exact i4 b (by simpa [hba] using hb) hn
    · intro b hb f hf
      by_cases hba : b = a
      · subst hba; exact k5 f hf
      · rw [k2 b hba]
        obtain ⟨g, g', h1, h2, h3⟩ := i5 b (by simpa [hba] using hb) f hf
        exact ⟨g, g', h1.mono hgrow, h2.mono hgrow, h3⟩)
  obtain ⟨i1, i2, i3, i4, i5⟩ := hinv
  have hmem : ∀ a f, ds.formulaAt a = some f → a ∈ ds.addrs := by
    intro a f hf
    apply mem_addrs
    unfold Dataset.formulaAt at hf
    rcases ho : ds.obj? a with _ | o
    · rw [ho] at hf; cases hf
    · rfl
  refine ⟨i1, ?_, ?_, ?_, fun a f hf => i5 a (hmem a f hf) f hf⟩
  · intro a v hv
    rcases i2 a with h | ⟨h, -⟩
    · rw [h, hv]
    · rw [h] at hv; cases hv
  · intro a hn
    constructor
    · rintro ⟨b, f, g, hf, hg, href⟩
      obtain ⟨g1, g2, h1, h2, -⟩ := i5 b (hmem b f hf) f hf
      have hsome : ∃ v, out.varAt a = some v := by
        rcases href with ⟨string, u, hr, hof⟩ | ⟨string, u, hr, hof⟩
        · obtain ⟨σ, hσ, -⟩ := h1
          obtain ⟨c, hc, hv⟩ := hσ _ _ hr
          rw [hc.unique hof] at hv
          exact ⟨_, hv⟩
        · rw [hg.unique h1] at hr
          obtain ⟨σ, hσ, -⟩ := h2
          obtain ⟨c, hc, hv⟩ := hσ _ _ hr
          rw [hc.unique hof] at hv
          exact ⟨_, hv⟩
      obtain ⟨v, hv⟩ := hsome
      rcases i2 a with h | ⟨-, h, -⟩
      · rw [h, hn] at hv; cases hv
      · exact h
    · intro hno
      rcases i2 a with h | ⟨-, -, hr⟩
      · rw [h, hn]
      · exact absurd hr hno
  · intro a hn
    by_cases ha : a ∈ ds.addrs
    · exact i4 a ha hn
    · rw [i3 a ha, hn]

theorem replaceImplicitReferences_error {ds : Dataset} {e : Err} (h : replaceImplicitReferences ds = .error e) : e = .valueError := by
  have hfold : ∀ {find : Dataset → Text → Except Err Addr} (_ : Finder find) {name : Text → String} {a : Addr} {s : Dataset} {R : List (Text × Text)},
      foldE (replaceReference find name a) s R = .error e → e = .valueError := by
    intro find hF name a s R h
    obtain ⟨-, r, m, -, -, hm⟩ := foldE_error (I := fun _ _ => True) h trivial (fun _ _ _ _ _ _ _ => trivial)
    unfold replaceReference at hm
    rcases bind_eq_error.mp hm with hm | ⟨t, -, hm⟩
    · exact hF.err _ _ _ hm
    · cases hm
  obtain ⟨-, a, m, -, -, hm⟩ := foldE_error (I := fun _ _ => True) h trivial (fun _ _ _ _ _ _ _ => trivial)
  unfold replaceReferencesAt at hm
  rcases bind_eq_error.mp hm with hm | ⟨t, -, hm⟩
  · exact hfold finder_amount hm
  · exact hfold finder_volume hm

/-- C57: a reference to an id that no exchange and no parameter of the dataset has stops the run with a `ValueError`. -/
theorem C57_missing {ds : Dataset} {a : Addr} {f : String} {string u : Text} (hf : ds.formulaAt a = some f) (hr : AmountRef f.toList string u)
    (hno : (∀ e ∈ ds.exchanges, e.id.toList ≠ u) ∧ ∀ p ∈ ds.parameters, p.id.toList ≠ u) : replaceImplicitReferences ds = .error .valueError := by
  rcases h : replaceImplicitReferences ds with e | out
  · rw [replaceImplicitReferences_error h]
  · exfalso
    obtain ⟨-, -, -, -, h5⟩ := C57_references h
    obtain ⟨g, g', ⟨σ, hσ, -⟩, -⟩ := h5 a f hf
    obtain ⟨b, hb, -⟩ := hσ string u hr
    rcases hb with ⟨i, -, ⟨x, hx, hP⟩, -⟩ | ⟨-, i, -, ⟨x, hx, hP⟩, -⟩
    · exact hno.1 x (List.mem_of_getElem? hx) hP
    · exact hno.2 x (List.mem_of_getElem? hx) hP

/-! ### Example -/

/-- An exchange refers twice to another exchange, and once to its production volume. -/
def Spec.refExample : Dataset :=
  { name := "a", exchanges := [{ name := "p", type := .referenceProduct, amount := 1, id := "0000000a-0000-0000-0000-000000000001", pv := some { amount := 2 } }, { name := "q", type := .fromTechnosphere, amount := 1, id := "0000000a-0000-0000-0000-000000000002", formula := some "2*Ref('0000000a-0000-0000-0000-000000000001')+ref('0000000a-0000-0000-0000-000000000001')/Ref('0000000a-0000-0000-0000-000000000001', 'ProductionVolume')" }] }

/-- The same dataset with variables. -/
def Spec.refExampleOut : Dataset :=
  { name := "a", exchanges := [{ name := "p", type := .referenceProduct, amount := 1, id := "0000000a-0000-0000-0000-000000000001", var := some "ref_replacement_0000000a000000000000000000000001", pv := some { amount := 2, var := some "ref_pv_replacement_0000000a000000000000000000000001" } }, { name := "q", type := .fromTechnosphere, amount := 1, id := "0000000a-0000-0000-0000-000000000002", formula := some "2*ref_replacement_0000000a000000000000000000000001+ref_replacement_0000000a000000000000000000000001/ref_pv_replacement_0000000a000000000000000000000001" }] }

example : replaceImplicitReferences refExample = .ok refExampleOut := by decide +kernel

end Ocelot
