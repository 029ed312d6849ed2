import Verif.Props.Uncertainty
import Mathlib.Tactic.IntervalCases

/-! # Properties C08, C09: pedigree matrices -/

namespace Ocelot

/-! ## C08 -/

/-- C08: the adjusted score of a legal score is legal and never better than before. -/
theorem C08_adjust_range (c d : Int) (hc : 1 ≤ c ∧ c ≤ 5) :
    c ≤ adjustTemporal c d ∧ adjustTemporal c d ≤ 5 := by
  unfold adjustTemporal
  repeat' split
  all_goals omega

/-- C08: monotone in the year difference. -/
theorem C08_adjust_mono_difference (c d d' : Int) (hc : 1 ≤ c ∧ c ≤ 5) (h : d ≤ d') :
    adjustTemporal c d ≤ adjustTemporal c d' := by
  unfold adjustTemporal
  obtain ⟨h1, h2⟩ := hc
  interval_cases c <;> simp <;> (repeat' split) <;> omega

/-- C08: monotone in the current score. -/
theorem C08_adjust_mono_current (c c' d : Int) (hc : 1 ≤ c) (hc' : c' ≤ 5) (h : c ≤ c') :
    adjustTemporal c d ≤ adjustTemporal c' d := by
  have h2 : c ≤ 5 := by omega
  have h3 : 1 ≤ c' := by omega
  unfold adjustTemporal
  interval_cases c <;> interval_cases c' <;> simp <;> (repeat' split) <;> omega

/-- The year differences above which a temporal score gets worse by one, for each legal score. -/
def Spec.temporalLimits : Int → List Int
  | 1 => [0, 3, 7, 12]
  | 2 => [0, 4, 5]
  | 3 => [0, 5]
  | 4 => [0]
  | _ => []

/-- C08: the score gets worse by the number of limits that the year difference exceeds. -/
theorem C08_table (c d : Int) (hc : 1 ≤ c ∧ c ≤ 5) :
    adjustTemporal c d = c + ((Spec.temporalLimits c).filter fun x => decide (x < d)).length := by
  obtain ⟨h1, h2⟩ := hc
  unfold adjustTemporal
  interval_cases c <;> simp only [Spec.temporalLimits, List.filter_cons, List.filter_nil, decide_eq_true_eq] <;> (repeat' split) <;> simp_all <;> omega

theorem assocSet_lookup_ne {k k' : String} {v : Int} (h : k' ≠ k) :
    ∀ l : List (String × Int), (assocSet k v l).lookup k' = l.lookup k'
  | [] => rfl
  | (a, b) :: l => by
    unfold assocSet
    split
    · next ha =>
      subst ha
      have : (k' == a) = false := by simpa using h
      simp [List.lookup_cons, this]
    · simp only [List.lookup_cons]
      rw [assocSet_lookup_ne h l]

theorem assocSet_lookup_eq {k : String} {v w : Int} :
    ∀ l : List (String × Int), l.lookup k = some w → (assocSet k v l).lookup k = some v
  | [], h => by simp at h
  | (a, b) :: l, h => by
    unfold assocSet
    split
    · next ha => subst ha; simp
    · next ha =>
      have ha' : (k == a) = false := by simpa using fun hc => ha hc.symm
      simp only [List.lookup_cons, ha'] at h ⊢
      exact assocSet_lookup_eq l h

/-- C08: the function changes the temporal score and nothing else; without a pedigree matrix it does
nothing; with equal years it does nothing. -/
theorem C08_adjust_frame (endYear year : Int) (o : NumObj) (pm : List (String × Int)) (c : Int)
    (hp : o.pedigree = some pm) (hc : pm.lookup "temporal correlation" = some c) :
    ∃ pm', adjustPedigreeMatrixTime endYear year o = .ok { o with pedigree := some pm' } ∧
      pm'.lookup "temporal correlation" = some (adjustTemporal c |endYear - year|) ∧
      (∀ k, k ≠ "temporal correlation" → pm'.lookup k = pm.lookup k) ∧
      pm'.map Prod.fst = pm.map Prod.fst := by
  refine ⟨assocSet "temporal correlation" (adjustTemporal c |endYear - year|) pm, ?_,
    assocSet_lookup_eq pm hc, fun k hk => assocSet_lookup_ne hk pm, ?_⟩
  · simp [adjustPedigreeMatrixTime, hp, hc]
  · clear hc hp
    induction pm with
    | nil => rfl
    | cons a l ih =>
      obtain ⟨a, b⟩ := a
      unfold assocSet
      split
      · rfl
      · simp [ih]

theorem C08_no_matrix (endYear year : Int) (o : NumObj) (hp : o.pedigree = none) :
    adjustPedigreeMatrixTime endYear year o = .ok o := by
  simp [adjustPedigreeMatrixTime, hp]

theorem C08_same_year (year : Int) (o : NumObj) (pm : List (String × Int)) (c : Int)
    (hp : o.pedigree = some pm) (hc : pm.lookup "temporal correlation" = some c) :
    adjustPedigreeMatrixTime year year o = .ok o := by
  have key : ∀ l : List (String × Int), l.lookup "temporal correlation" = some c →
      assocSet "temporal correlation" c l = l := by
    intro l
    induction l with
    | nil => intro _; rfl
    | cons a l ih =>
      obtain ⟨a, b⟩ := a
      intro h
      unfold assocSet
      rw [List.lookup_cons] at h
      split
      · next ha => subst ha; simp at h; simp [h]
      · next ha =>
        have ha' : ("temporal correlation" == a) = false := by simpa using fun hc => ha hc.symm
        simp only [ha'] at h
        rw [ih h]
  have e : adjustTemporal c |year - year| = c := by simp [adjustTemporal]
  simp only [adjustPedigreeMatrixTime, hp, hc, e, key pm hc]
  rw [← hp]

example : adjustPedigreeMatrixTime 2012 2015 { amount := 1, pedigree := some [("reliability", 2), ("temporal correlation", 2)] }
    = .ok { amount := 1, pedigree := some [("reliability", 2), ("temporal correlation", 3)] } := by
  decide +kernel

/-! ## C09 -/

/-- One pedigree indicator name known to the variance table. -/
def knownIndicators : List String :=
  ["reliability", "completeness", "temporal correlation", "geographical correlation",
   "further technological correlation", "sample size"]

/-- A matrix with known indicators and scores in 1..5. -/
def LegalPedigree (pm : List (String × Int)) : Prop :=
  ∀ kv ∈ pm, kv.1 ∈ knownIndicators ∧ 1 ≤ kv.2 ∧ kv.2 ≤ 5

/-- The table value for legal arguments is defined, monotone in the score, zero at 1. -/
theorem pedigreeTerm_legal (k : String) (hk : k ∈ knownIndicators) :
    (pedigreeTerm (k, 1) = .ok 0) ∧
    ∀ s s' : Int, 1 ≤ s → s ≤ s' → s' ≤ 5 → ∃ x y, pedigreeTerm (k, s) = .ok x ∧
      pedigreeTerm (k, s') = .ok y ∧ 0 ≤ x ∧ x ≤ y := by
  have tab : ∀ k ∈ knownIndicators, ∃ a b c d : ℚ, 0 ≤ a ∧ a ≤ b ∧ b ≤ c ∧ c ≤ d ∧
      pedigreeTable.lookup k = some [0, a, b, c, d] := by
    intro k hk
    simp only [knownIndicators, List.mem_cons, List.not_mem_nil, or_false] at hk
    rcases hk with rfl | rfl | rfl | rfl | rfl | rfl
    · exact ⟨_, _, _, _, by norm_num, by norm_num, by norm_num, by norm_num, rfl⟩
    · exact ⟨_, _, _, _, by norm_num, by norm_num, by norm_num, by norm_num, rfl⟩
    · exact ⟨_, _, _, _, by norm_num, by norm_num, by norm_num, by norm_num, rfl⟩
    · exact ⟨_, _, _, _, by norm_num, by norm_num, by norm_num, by norm_num, rfl⟩
    · exact ⟨_, _, _, _, by norm_num, by norm_num, by norm_num, by norm_num, rfl⟩
    · exact ⟨_, _, _, _, by norm_num, by norm_num, by norm_num, by norm_num, rfl⟩
  obtain ⟨a, b, c, d, h1, h2, h3, h4, ht⟩ := tab k hk
  have idx : ∀ s : Int, 1 ≤ s → s ≤ 5 → ∃ x, pedigreeTerm (k, s) = .ok x ∧
      x = (if s = 1 then 0 else if s = 2 then a else if s = 3 then b else if s = 4 then c else d) := by
    intro s hs1 hs2
    interval_cases s
    all_goals simp [pedigreeTerm, ht, pyIndex]
  refine ⟨?_, ?_⟩
  · obtain ⟨x, hx, rfl⟩ := idx 1 (by norm_num) (by norm_num)
    simpa using hx
  · intro s s' hs hss hs'
    obtain ⟨x, hx, hxe⟩ := idx s hs (by omega)
    obtain ⟨y, hy, hye⟩ := idx s' (by omega) hs'
    refine ⟨x, y, hx, hy, ?_, ?_⟩
    · subst hxe
      repeat' split
      all_goals linarith
    · subst hxe; subst hye
      repeat' split
      all_goals first | linarith | omega

/-- C09: on legal matrices the variance is defined, nonnegative, and does not decrease when scores are
raised. -/
theorem C09_variance_mono (pm pm' : List (String × Int)) (hl : LegalPedigree pm)
    (hl' : LegalPedigree pm')
    (h : List.Forall₂ (fun a b => a.1 = b.1 ∧ a.2 ≤ b.2) pm pm') :
    ∃ v v', getPedigreeVariance pm = .ok v ∧ getPedigreeVariance pm' = .ok v' ∧ 0 ≤ v ∧ v ≤ v' := by
  induction h with
  | nil => exact ⟨0, 0, rfl, rfl, le_refl _, le_refl _⟩
  | @cons a b l l' hab _ ih =>
    obtain ⟨v, v', h1, h2, h3, h4⟩ := ih (fun x hx => hl x (by simp [hx]))
      (fun x hx => hl' x (by simp [hx]))
    obtain ⟨a1, a2⟩ := a
    obtain ⟨b1, b2⟩ := b
    obtain ⟨he, hle⟩ := hab
    simp only at he hle
    subst he
    obtain ⟨x, y, hx, hy, hx0, hxy⟩ := (pedigreeTerm_legal a1 (hl (a1, a2) (by simp)).1).2 a2 b2
      (hl (a1, a2) (by simp)).2.1 hle (hl' (a1, b2) (by simp)).2.2
    refine ⟨x + v, y + v', ?_, ?_, by linarith, by linarith⟩
    · simp [getPedigreeVariance, hx, h1]
    · simp [getPedigreeVariance, hy, h2]

/-- C09: all scores 1 means no additional variance. -/
theorem C09_variance_zero (pm : List (String × Int))
    (h : ∀ kv ∈ pm, kv.1 ∈ knownIndicators ∧ kv.2 = 1) : getPedigreeVariance pm = .ok 0 := by
  induction pm with
  | nil => rfl
  | cons a l ih =>
    obtain ⟨k, s⟩ := a
    obtain ⟨hk, hs⟩ := h (k, s) (by simp)
    simp only at hs
    subst hs
    have := (pedigreeTerm_legal k hk).1
    simp [getPedigreeVariance, this, ih (fun kv hkv => h kv (by simp [hkv]))]

/-- The largest entry of each row of the table. -/
def maxPedigree : String → ℚ
  | "reliability" => 4/100
  | "completeness" => 8/1000
  | "temporal correlation" => 4/100
  | "geographical correlation" => 2/1000
  | "further technological correlation" => 12/100
  | "sample size" => 83/10000
  | _ => 0

/-- C09: upper bound: a legal matrix adds at most the sum of the row maxima of its indicators. -/
theorem C09_variance_bounded (pm : List (String × Int)) (hl : LegalPedigree pm) :
    ∃ v, getPedigreeVariance pm = .ok v ∧ v ≤ (pm.map fun kv => maxPedigree kv.1).sum := by
  have h5 : ∀ k ∈ knownIndicators, pedigreeTerm (k, 5) = .ok (maxPedigree k) := by
    intro k hk
    simp only [knownIndicators, List.mem_cons, List.not_mem_nil, or_false] at hk
    rcases hk with rfl | rfl | rfl | rfl | rfl | rfl <;> decide +kernel
  induction pm with
  | nil => exact ⟨0, rfl, by simp⟩
  | cons a l ih =>
    obtain ⟨k, s⟩ := a
    obtain ⟨v, hv, hle⟩ := ih (fun x hx => hl x (by simp [hx]))
    obtain ⟨hk, hs1, hs5⟩ := hl (k, s) (by simp)
    obtain ⟨x, y, hx, hy, _, hxy⟩ := (pedigreeTerm_legal k hk).2 s 5 hs1 hs5 (le_refl _)
    rw [h5 k hk] at hy
    cases hy
    refine ⟨x + v, by simp [getPedigreeVariance, hx, hv], ?_⟩
    simp only [List.map_cons, List.sum_cons]
    linarith

/-- C09 is violated for extracted data: extraction labels the fifth indicator `further technology
correlation`, which the variance table does not know, so the variance of *every* extracted matrix
with legal scores raises `KeyError`. -/
theorem C09_extracted_matrix_fails (r c t g f : Int) (hr : 1 ≤ r ∧ r ≤ 5) (hc : 1 ≤ c ∧ c ≤ 5)
    (ht : 1 ≤ t ∧ t ≤ 5) (hg : 1 ≤ g ∧ g ≤ 5) :
    getPedigreeVariance (extractedPedigree r c t g f) = .error .keyError := by
  have step : ∀ k ∈ knownIndicators, ∀ s : Int, 1 ≤ s ∧ s ≤ 5 → ∃ x, pedigreeTerm (k, s) = .ok x := by
    intro k hk s hs
    obtain ⟨x, _, hx, _⟩ := (pedigreeTerm_legal k hk).2 s s hs.1 (le_refl _) hs.2
    exact ⟨x, hx⟩
  obtain ⟨x1, h1⟩ := step "reliability" (by simp [knownIndicators]) r hr
  obtain ⟨x2, h2⟩ := step "completeness" (by simp [knownIndicators]) c hc
  obtain ⟨x3, h3⟩ := step "temporal correlation" (by simp [knownIndicators]) t ht
  obtain ⟨x4, h4⟩ := step "geographical correlation" (by simp [knownIndicators]) g hg
  have h5 : pedigreeTerm ("further technology correlation", f) = .error .keyError := by
    simp [pedigreeTerm, pedigreeTable, List.lookup]
  simp [extractedPedigree, getPedigreeVariance, h1, h2, h3, h4, h5]

example : LegalPedigree [("reliability", 2), ("temporal correlation", 5)] := by
  intro kv h
  simp only [List.mem_cons, List.not_mem_nil, or_false] at h
  rcases h with rfl | rfl <;> exact ⟨by decide, by norm_num, by norm_num⟩

/-- C08/C09 combined: adjusting the year of a lognormal exchange whose pedigree is legal never reduces
its total variance below `variance + pedigree variance`. -/
theorem C08_variance_not_reduced (endYear year : Int) (o : NumObj) (u : Unc) (pm : List (String × Int))
    (c : Int) (w : ℚ) (hp : o.pedigree = some pm) (hl : LegalPedigree pm)
    (hc : pm.lookup "temporal correlation" = some c)
    (hu : o.uncertainty = some u) (hk : u.kind = some .lognormal) (hw : u.variance = some w) :
    ∃ pv o' u' t, getPedigreeVariance pm = .ok pv ∧ adjustPedigreeTime endYear year o = .ok o' ∧
      o'.amount = o.amount ∧ o'.uncertainty = some u' ∧ u'.variancePed = some t ∧ w + pv ≤ t := by
  have hset : ∀ l : List (String × Int), LegalPedigree l → l.lookup "temporal correlation" = some c →
      LegalPedigree (assocSet "temporal correlation" (adjustTemporal c |endYear - year|) l) ∧
      List.Forall₂ (fun a b : String × Int => a.1 = b.1 ∧ a.2 ≤ b.2) l
        (assocSet "temporal correlation" (adjustTemporal c |endYear - year|) l) := by
    intro l
    induction l with
    | nil => intro _ h; simp at h
    | cons a l ih =>
      obtain ⟨a, b⟩ := a
      intro hL h
      rw [List.lookup_cons] at h
      unfold assocSet
      split
      · next ha =>
        subst ha
        simp at h
        subst h
        have hr := C08_adjust_range b |endYear - year| (hL ("temporal correlation", b) (by simp)).2
        have hb := (hL ("temporal correlation", b) (by simp)).2
        refine ⟨?_, List.Forall₂.cons ⟨rfl, hr.1⟩ ?_⟩
        · intro kv hkv
          rcases List.mem_cons.mp hkv with rfl | hkv
          · exact ⟨by simp [knownIndicators], le_trans hb.1 hr.1, hr.2⟩
          · exact hL kv (by simp [hkv])
        · exact List.forall₂_same.mpr (fun x _ => ⟨rfl, le_refl _⟩)
      · next ha =>
        have ha' : ("temporal correlation" == a) = false := by simpa using fun hc => ha hc.symm
        simp only [ha'] at h
        obtain ⟨h1, h2⟩ := ih (fun x hx => hL x (by simp [hx])) h
        refine ⟨?_, List.Forall₂.cons ⟨rfl, le_refl _⟩ h2⟩
        intro kv hkv
        rcases List.mem_cons.mp hkv with rfl | hkv
        · exact hL _ (by simp)
        · exact h1 kv hkv
  obtain ⟨hL', hF⟩ := hset pm hl hc
  obtain ⟨x, y, hx, hy, _, hxy⟩ := C09_variance_mono pm _ hl hL' hF
  refine ⟨x, { o with pedigree := some (assocSet "temporal correlation" (adjustTemporal c |endYear - year|) pm), uncertainty := some { u with variancePed := some (w + y) } }, { u with variancePed := some (w + y) }, w + y, hx, ?_, rfl, rfl, rfl, by linarith⟩
  · simp only [adjustPedigreeTime, adjustPedigreeMatrixTime, hp, hc, ebind_ok, recalculatePedigree, hu,
      hk, hw, getKey_some, objPedigreeVariance, Option.getD_some, hy, epure]

end Ocelot
