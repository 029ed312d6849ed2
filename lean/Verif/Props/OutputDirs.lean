import Verif.Model.OutputDirs
import Mathlib.Tactic.Tauto

/-! # Property C125: the output directory of a run -/

namespace Ocelot

namespace Spec

/-- The path is missing, and the directory can be made, since the deepest directory that exists above is writeable. -/
inductive Creatable (t : Tree) : Path → Prop where
  | here {c parent} : t (c :: parent) = none → t parent = some (.dir true) → Creatable t (c :: parent)
  | deeper {c parent} : t (c :: parent) = none → t parent = none → Creatable t parent → Creatable t (c :: parent)

/-- The path is a directory, or can be made one. -/
def Available (t : Tree) (p : Path) : Prop := t.isDir p = true ∨ Creatable t p

/-- What exists is in a directory. -/
def InDirs (t : Tree) : Prop := ∀ c p, t (c :: p) ≠ none → t.isDir p = true

/-- Nothing that was there is changed or gone; what is new is a writeable directory. -/
def OnlyNewDirs (t t' : Tree) : Prop := ∀ q, t' q = t q ∨ (t q = none ∧ t' q = some (.dir true))

/-- The directory for all runs: the one that is given, or that of the environment variable if it is available, or the default. -/
inductive Home (E : DirEnv) (dirPath : Option Path) (t : Tree) : Path → Prop where
  | given {d} : dirPath = some d → Home E dirPath t d
  | fromVariable {d} : dirPath = none → E.var = .path d → Available t d → Home E dirPath t d
  | fallback : dirPath = none → (∀ d, E.var = .path d → ¬ Available t d) → Home E dirPath t ("model-runs" :: E.base)

end Spec

open Spec

theorem onlyNewDirs_refl (t : Tree) : OnlyNewDirs t t := fun _ => .inl rfl

theorem onlyNewDirs_trans {t₁ t₂ t₃ : Tree} (h : OnlyNewDirs t₁ t₂) (h' : OnlyNewDirs t₂ t₃) : OnlyNewDirs t₁ t₃ := by
  intro q
  rcases h q with h1 | ⟨h1, h2⟩ <;> rcases h' q with h3 | ⟨h3, h4⟩
  · exact .inl (h3.trans h1)
  · exact .inr ⟨by rw [← h1]; exact h3, h4⟩
  · exact .inr ⟨h1, h3.trans h2⟩
  · exact .inr ⟨h1, h4⟩

theorem mkdir_of {t : Tree} {c : String} {p : Path} (h1 : t (c :: p) = none) (h2 : t p = some (.dir true)) :
    t.mkdir (c :: p) = (fun q => if q = c :: p then some (.dir true) else t q, .ok ()) := by
  simp only [Tree.mkdir]
  rw [if_pos ⟨h1, h2⟩]

theorem mkdir_inDirs {t : Tree} (ht : InDirs t) (p : Path) : InDirs (t.mkdir p).1 := by
  unfold Tree.mkdir
  split
  · exact ht
  · next c p =>
    split
    · next hc =>
      intro d q hq
      simp only [Tree.isDir] at hq ⊢
      by_cases h1 : q = c :: p
      · rw [if_pos h1]
      · rw [if_neg h1]
        by_cases h2 : d :: q = c :: p
        · cases h2
          rw [hc.2]
        · rw [if_neg h2] at hq
          exact ht d q hq
    · exact ht

/-- `os.makedirs` succeeds exactly for what can be made; then the path is a new writeable directory, and only it and directories above it are new. Otherwise nothing happens. -/
theorem makedirs_spec {t : Tree} (ht : InDirs t) (p : Path) :
    (Creatable t p ∧ ∃ t', t.makedirs p = (t', .ok ()) ∧ t' p = some (.dir true) ∧ OnlyNewDirs t t' ∧ InDirs t' ∧ ∀ q, t' q ≠ t q → q <:+ p) ∨
      (¬ Creatable t p ∧ t.makedirs p = (t, .error .osError)) := by
  induction p with
  | nil => exact .inr ⟨fun h => (nomatch h), rfl⟩
  | cons c p ih =>
    unfold Tree.makedirs
    by_cases hp : t p = none
    · rw [if_pos hp]
      have hcp : t (c :: p) = none := by
        by_contra hne
        have := ht c p hne
        simp [Tree.isDir, hp] at this
      rcases ih with ⟨hc, t₁, h1, h2, h3, h5, h4⟩ | ⟨hc, h1⟩
      · rw [h1]
        simp only
        have heq : t₁ (c :: p) = t (c :: p) := by
          by_contra hne
          have := (h4 _ hne).length_le
          simp at this
        have hin := mkdir_inDirs h5 (c :: p)
        rw [mkdir_of (heq.trans hcp) h2] at hin ⊢
        refine .inl ⟨.deeper hcp hp hc, _, rfl, by simp, ?_, hin, ?_⟩
        · intro q
          by_cases hq : q = c :: p
          · subst hq
            exact .inr ⟨hcp, by simp⟩
          · simp only [hq, if_false]
            exact h3 q
        · intro q hq
          by_cases hqe : q = c :: p
          · subst hqe; exact List.suffix_refl _
          · simp only [hqe, if_false] at hq
            exact (h4 q hq).trans (List.suffix_cons c p)
      · rw [h1]
        refine .inr ⟨?_, rfl⟩
        intro h
        cases h with
        | here _ h2 => rw [hp] at h2; cases h2
        | deeper _ _ h2 => exact hc h2
    · rw [if_neg hp]
      by_cases hcr : t (c :: p) = none ∧ t p = some (.dir true)
      · have hin := mkdir_inDirs ht (c :: p)
        rw [mkdir_of hcr.1 hcr.2] at hin ⊢
        refine .inl ⟨.here hcr.1 hcr.2, _, rfl, by simp, ?_, hin, ?_⟩
        · intro q
          by_cases hq : q = c :: p
          · subst hq; exact .inr ⟨hcr.1, by simp⟩
          · exact .inl (by simp [hq])
        · intro q hq
          by_cases hqe : q = c :: p
          · subst hqe; exact List.suffix_refl _
          · simp [hqe] at hq
      · refine .inr ⟨?_, ?_⟩
        · intro h
          cases h with
          | here h1 h2 => exact hcr ⟨h1, h2⟩
          | deeper _ h2 _ => exact hp h2
        · simp only [Tree.mkdir]
          rw [if_neg hcr]

theorem isDir_iff {t : Tree} {p : Path} : t.isDir p = true ↔ ∃ w, t p = some (.dir w) := by
  unfold Tree.isDir
  rcases t p with _ | _ | w <;> simp

theorem creatable_none {t : Tree} {p : Path} (h : Creatable t p) : t p = none := by
  cases h <;> assumption

/-- `create_dir` succeeds exactly if the path is available; an existing directory is left alone, a missing one is made, with the missing ones above it. Otherwise nothing happens. -/
theorem createDir_spec {t : Tree} (ht : InDirs t) (p : Path) :
    (Available t p ∧ ∃ t', createDir t p = (t', .ok ()) ∧ t'.isDir p = true ∧ (t p = none → t' p = some (.dir true)) ∧ OnlyNewDirs t t' ∧ InDirs t' ∧ ∀ q, t' q ≠ t q → q <:+ p) ∨
      (¬ Available t p ∧ createDir t p = (t, .error .osError)) := by
  unfold createDir Available
  by_cases hd : t.isDir p = true
  · rw [if_pos hd]
    refine .inl ⟨.inl hd, t, rfl, hd, ?_, onlyNewDirs_refl t, ht, fun q hq => absurd rfl hq⟩
    intro h
    obtain ⟨w, hw⟩ := isDir_iff.mp hd
    rw [h] at hw; cases hw
  · rw [if_neg hd]
    rcases makedirs_spec ht p with ⟨hc, t', h1, h2, h3, h4, h5⟩ | ⟨hc, h1⟩
    · exact .inl ⟨.inr hc, t', h1, isDir_iff.mpr ⟨true, h2⟩, fun _ => h2, h3, h4, h5⟩
    · exact .inr ⟨by tauto, h1⟩

/-- What `createInBase` does. -/
theorem createInBase_spec (E : DirEnv) (name : String) {t : Tree} (ht : InDirs t) :
    OnlyNewDirs t (createInBase E name t).1 ∧ InDirs (createInBase E name t).1 ∧ (∀ q, (createInBase E name t).1 q ≠ t q → q <:+ name :: E.base) ∧
      ((Available t (name :: E.base) ∧ (createInBase E name t).2 = .ok (name :: E.base) ∧ (createInBase E name t).1.isDir (name :: E.base) = true ∧
          (t (name :: E.base) = none → (createInBase E name t).1 (name :: E.base) = some (.dir true))) ∨
        (¬ Available t (name :: E.base) ∧ (createInBase E name t).2 = .error .osError)) := by
  unfold createInBase
  rcases createDir_spec ht E.base with ⟨ha, t₁, h1, h2, h3, h4, h5, h6⟩ | ⟨ha, h1⟩
  · rw [h1]
    simp only
    have hsame : t₁ (name :: E.base) = t (name :: E.base) := by
      by_contra hne
      have := (h6 _ hne).length_le
      simp at this
    have hav : Available t₁ (name :: E.base) ↔ Available t (name :: E.base) := by
      unfold Available
      have hdir : t₁.isDir (name :: E.base) = t.isDir (name :: E.base) := by unfold Tree.isDir; rw [hsame]
      rw [hdir]
      by_cases hd : t.isDir (name :: E.base) = true
      · tauto
      · have : Creatable t₁ (name :: E.base) ↔ Creatable t (name :: E.base) := by
          by_cases hb : t E.base = none
          · have hb1 := h3 hb
            have hn : t (name :: E.base) = none := by
              by_contra hne
              have := ht name E.base hne
              simp [Tree.isDir, hb] at this
            have hcb : Creatable t E.base := by
              rcases ha with ha | ha
              · simp [Tree.isDir, hb] at ha
              · exact ha
            exact ⟨fun _ => .deeper hn hb hcb, fun _ => .here (hsame.trans hn) hb1⟩
          · have hb1 : t₁ E.base = t E.base := by
              rcases h4 E.base with h | ⟨h, _⟩
              · exact h
              · exact absurd h hb
            constructor
            · intro h
              cases h with
              | here a b => exact .here (hsame ▸ a) (hb1 ▸ b)
              | deeper _ b _ => exact absurd (hb1 ▸ b) hb
            · intro h
              cases h with
              | here a b => exact .here (hsame.trans a) (hb1.trans b)
              | deeper _ b _ => exact absurd b hb
        rw [this]
    rcases createDir_spec h5 (name :: E.base) with ⟨hb, t₂, g1, g2, g3, g4, g5, g6⟩ | ⟨hb, g1⟩
    · rw [g1]
      simp only
      refine ⟨onlyNewDirs_trans h4 g4, g5, ?_, .inl ⟨hav.mp hb, trivial, g2, fun hn => g3 (hsame.trans hn)⟩⟩
      intro q hq
      by_cases hq1 : t₁ q = t q
      · exact g6 q (by rw [hq1]; exact hq)
      · exact (h6 q hq1).trans (List.suffix_cons _ _)
    · rw [g1]
      simp only
      exact ⟨h4, h5, fun q hq => (h6 q hq).trans (List.suffix_cons _ _), .inr ⟨fun h => hb (hav.mpr h), trivial⟩⟩
  · rw [h1]
    simp only
    refine ⟨onlyNewDirs_refl t, ht, fun q hq => absurd rfl hq, .inr ⟨?_, trivial⟩⟩
    intro h
    apply ha
    rcases h with h | h
    · left
      obtain ⟨w, hw⟩ := isDir_iff.mp h
      exact ht name E.base (by rw [hw]; simp)
    · cases h with
      | here _ b => exact .inl (isDir_iff.mpr ⟨true, b⟩)
      | deeper _ _ b => exact .inr b

/-- `get_output_directory`: the directory of the environment variable if it is available, otherwise the default. -/
theorem getOutputDirectory_spec (E : DirEnv) {t : Tree} (ht : InDirs t) :
    OnlyNewDirs t (getOutputDirectory E t).1 ∧ InDirs (getOutputDirectory E t).1 ∧
      ((∃ d, Home E none t d ∧ Available t d ∧ (getOutputDirectory E t).2 = .ok d ∧ (getOutputDirectory E t).1.isDir d = true ∧ (t d = none → (getOutputDirectory E t).1 d = some (.dir true)) ∧
          ∀ q, (getOutputDirectory E t).1 q ≠ t q → q <:+ d) ∨
        ((∀ d, Home E none t d → ¬ Available t d) ∧ (getOutputDirectory E t).2 = .error .osError)) := by
  have hdef : (∀ d, E.var = .path d → ¬ Available t d) → OnlyNewDirs t (createInBase E "model-runs" t).1 ∧ InDirs (createInBase E "model-runs" t).1 ∧
      ((∃ d, Home E none t d ∧ Available t d ∧ (createInBase E "model-runs" t).2 = .ok d ∧ (createInBase E "model-runs" t).1.isDir d = true ∧ (t d = none → (createInBase E "model-runs" t).1 d = some (.dir true)) ∧
          ∀ q, (createInBase E "model-runs" t).1 q ≠ t q → q <:+ d) ∨
        ((∀ d, Home E none t d → ¬ Available t d) ∧ (createInBase E "model-runs" t).2 = .error .osError)) := by
    intro hv
    obtain ⟨h1, h2, h3, h4⟩ := createInBase_spec E "model-runs" ht
    refine ⟨h1, h2, ?_⟩
    rcases h4 with ⟨a, b, c, d⟩ | ⟨a, b⟩
    · exact .inl ⟨_, .fallback rfl hv, a, b, c, d, h3⟩
    · refine .inr ⟨?_, b⟩
      intro d hd
      cases hd with
      | given h => cases h
      | fromVariable _ h _ => exact hv d h
      | fallback _ _ => exact a
  unfold getOutputDirectory
  rcases hv : E.var with _ | _ | p
  · simp only
    exact hdef fun d hd => by rw [hv] at hd; cases hd
  · simp only
    exact hdef fun d hd => by rw [hv] at hd; cases hd
  · simp only
    rcases createDir_spec ht p with ⟨ha, t₁, h1, h2, h3, h4, h5, h6⟩ | ⟨ha, h1⟩
    · rw [h1]
      exact ⟨h4, h5, .inl ⟨p, .fromVariable rfl hv ha, ha, rfl, h2, h3, h6⟩⟩
    · rw [h1]
      exact hdef fun d hd => by rw [hv] at hd; cases hd; exact ha

/-- The directory of the run in `d`. -/
theorem createRunDir_spec (E : DirEnv) (follow : Bool) (d : Path) {t : Tree} (ht : InDirs t) (hnew : t (E.id :: d) = none) :
    OnlyNewDirs t (createRunDir E follow d t).1 ∧ InDirs (createRunDir E follow d t).1 ∧
      ((Creatable t (E.id :: d) ∧ (createRunDir E follow d t).2 = .ok (E.id :: d) ∧ (createRunDir E follow d t).1 (E.id :: d) = some (.dir true) ∧
          (∀ q, (createRunDir E follow d t).1 q ≠ t q → q <:+ E.id :: d ∨ (follow = true ∧ q = "follow" :: E.id :: d)) ∧
          (follow = true → (createRunDir E follow d t).1 ("follow" :: E.id :: d) = some (.dir true))) ∨
        (¬ Creatable t (E.id :: d) ∧ createRunDir E follow d t = (t, .error .outputDirectoryError))) := by
  unfold createRunDir
  rcases createDir_spec ht (E.id :: d) with ⟨ha, t₁, h1, h2, h3, h4, h5, h6⟩ | ⟨ha, h1⟩
  · rw [h1]
    simp only
    have hw := h3 hnew
    rw [if_pos (show checkDir t₁ (E.id :: d) = true by unfold checkDir; rw [hw]; rfl)]
    have hcr : Creatable t (E.id :: d) := by
      rcases ha with ha | ha
      · simp [Tree.isDir, hnew] at ha
      · exact ha
    cases follow
    · exact ⟨h4, h5, .inl ⟨hcr, rfl, hw, fun q hq => .inl (h6 q hq), fun h => (by cases h)⟩⟩
    · rw [if_pos rfl]
      have hn : t₁ ("follow" :: E.id :: d) = none := by
        by_contra hne
        rcases h4 ("follow" :: E.id :: d) with h | ⟨_, h⟩
        · rw [h] at hne
          have := ht _ _ hne
          simp [Tree.isDir, hnew] at this
        · have := (h6 ("follow" :: E.id :: d) (by
            intro he
            rw [he] at h
            have := ht "follow" (E.id :: d) (by rw [h]; simp)
            simp [Tree.isDir, hnew] at this)).length_le
          simp at this
      rcases createDir_spec h5 ("follow" :: E.id :: d) with ⟨hb, t₂, g1, g2, g3, g4, g5, g6⟩ | ⟨hb, g1⟩
      · rw [g1]
        refine ⟨onlyNewDirs_trans h4 g4, g5, .inl ⟨hcr, rfl, ?_, ?_, fun _ => g3 hn⟩⟩
        · rcases g4 (E.id :: d) with h | ⟨h, _⟩
          · exact h.trans hw
          · rw [hw] at h; cases h
        · intro q hq
          by_cases hq1 : t₂ q = t₁ q
          · exact .inl (h6 q (by rw [← hq1]; exact hq))
          · rcases (List.suffix_cons_iff.mp (g6 q hq1)) with h | h
            · exact .inr ⟨rfl, h⟩
            · exact .inl h
      · exact absurd (.inr (.here hn hw)) hb
  · rw [h1]
    refine ⟨onlyNewDirs_refl t, ht, .inr ⟨fun h => ha (.inr h), rfl⟩⟩

/-- **C125**, nothing is harmed: whether or not a directory for the run is found, everything that existed in the file system is as before; only directories are added. -/
theorem C125_harmless (E : DirEnv) (dirPath : Option Path) (follow : Bool) (t : Tree) (ht : InDirs t) (hnew : ∀ d, t (E.id :: d) = none) :
    OnlyNewDirs t (outputDir E dirPath follow t).1 ∧ InDirs (outputDir E dirPath follow t).1 := by
  unfold outputDir
  cases dirPath with
  | some d =>
    obtain ⟨h1, h2, -⟩ := createRunDir_spec E follow d ht (hnew d)
    exact ⟨h1, h2⟩
  | none =>
    simp only
    obtain ⟨h1, h2, h3⟩ := getOutputDirectory_spec E ht
    rcases h3 with ⟨d, hd, ha, h4, h5, h6, h7⟩ | ⟨_, h4⟩
    · rcases hg : getOutputDirectory E t with ⟨t₁, r⟩
      rw [hg] at h1 h2 h4 h5 h6 h7
      simp only at h1 h2 h4 h5 h6 h7
      rw [h4]
      simp only
      have hn : t₁ (E.id :: d) = none := by
        by_contra hne
        have h8 := h7 (E.id :: d) (by rw [hnew d]; exact hne)
        have := h8.length_le
        simp at this
      obtain ⟨g1, g2, -⟩ := createRunDir_spec E follow d h2 hn
      exact ⟨onlyNewDirs_trans h1 g1, g2⟩
    · rcases hg : getOutputDirectory E t with ⟨t₁, r⟩
      rw [hg] at h1 h2 h4
      simp only at h1 h2 h4
      rw [h4]
      exact ⟨h1, h2⟩

/-- **C125**, the directory: a run that starts gets a new, empty, writeable directory named by its identifier, in the directory that is given, or else in that of OCELOT_OUTPUT if this exists or can be
made, or else in the user's data directory; the directory for followed datasets is there if it is wanted, and nothing else. -/
theorem C125_directory {E : DirEnv} {dirPath : Option Path} {follow : Bool} {t : Tree} {p : Path} (ht : InDirs t) (hnew : ∀ d, t (E.id :: d) = none)
    (h : (outputDir E dirPath follow t).2 = .ok p) :
    ∃ d, Home E dirPath t d ∧ p = E.id :: d ∧ t p = none ∧ (outputDir E dirPath follow t).1 p = some (.dir true) ∧
      ∀ c, (outputDir E dirPath follow t).1 (c :: p) = if follow = true ∧ c = "follow" then some (.dir true) else none := by
  have key : ∀ (d : Path) (t₁ : Tree), InDirs t₁ → t₁ (E.id :: d) = none → (createRunDir E follow d t₁).2 = .ok p →
      p = E.id :: d ∧ (createRunDir E follow d t₁).1 p = some (.dir true) ∧ ∀ c, (createRunDir E follow d t₁).1 (c :: p) = if follow = true ∧ c = "follow" then some (.dir true) else none := by
    intro d t₁ ht₁ hn hok
    obtain ⟨-, -, h3⟩ := createRunDir_spec E follow d ht₁ hn
    rcases h3 with ⟨_, h4, h5, h6, h7⟩ | ⟨_, h4⟩
    · rw [h4] at hok
      cases hok
      refine ⟨rfl, h5, ?_⟩
      intro c
      have hbelow : t₁ (c :: E.id :: d) = none := by
        by_contra hne
        have := ht₁ _ _ hne
        simp [Tree.isDir, hn] at this
      split
      · next hc => rw [hc.2]; exact h7 hc.1
      · next hc =>
        by_contra hne
        rcases h6 (c :: E.id :: d) (by rw [hbelow]; exact hne) with h | ⟨hf, h⟩
        · have := h.length_le
          simp at this
        · cases h
          exact hc ⟨hf, rfl⟩
    · rw [h4] at hok
      cases hok
  unfold outputDir at h ⊢
  cases dirPath with
  | some d =>
    obtain ⟨hp, h1, h2⟩ := key d t ht (hnew d) h
    exact ⟨d, .given rfl, hp, by rw [hp]; exact hnew d, h1, h2⟩
  | none =>
    simp only at h ⊢
    obtain ⟨h1, h2, h3⟩ := getOutputDirectory_spec E ht
    rcases hg : getOutputDirectory E t with ⟨t₁, r⟩
    rw [hg] at h h1 h2 h3
    simp only at h h1 h2 h3
    rcases h3 with ⟨d, hd, ha, h4, h5, h6, h7⟩ | ⟨_, h4⟩
    · rw [h4] at h ⊢
      simp only at h ⊢
      have hn : t₁ (E.id :: d) = none := by
        by_contra hne
        have h8 := h7 (E.id :: d) (by rw [hnew d]; exact hne)
        have := h8.length_le
        simp at this
      obtain ⟨hp, g1, g2⟩ := key d t₁ h2 hn h
      exact ⟨d, hd, hp, by rw [hp]; exact hnew d, g1, g2⟩
    · rw [h4] at h
      cases h

/-- **C125**, two runs: runs with different identifiers have different directories, whatever they were told. -/
theorem C125_apart {E E' : DirEnv} {dirPath dirPath' : Option Path} {follow follow' : Bool} {t t' : Tree} {p p' : Path} (ht : InDirs t) (ht' : InDirs t')
    (hnew : ∀ d, t (E.id :: d) = none) (hnew' : ∀ d, t' (E'.id :: d) = none) (hid : E.id ≠ E'.id)
    (h : (outputDir E dirPath follow t).2 = .ok p) (h' : (outputDir E' dirPath' follow' t').2 = .ok p') : p ≠ p' := by
  obtain ⟨d, -, hp, -⟩ := C125_directory ht hnew h
  obtain ⟨d', -, hp', -⟩ := C125_directory ht' hnew' h'
  rw [hp, hp']
  intro he
  exact hid (List.cons.inj he).1

theorem creatable_below {t : Tree} {c : String} {p : Path} (hn : t (c :: p) = none) : Creatable t (c :: p) ↔ t p = some (.dir true) ∨ Creatable t p := by
  constructor
  · intro h
    cases h with
    | here _ b => exact .inl b
    | deeper _ _ b => exact .inr b
  · rintro (h | h)
    · exact .here hn h
    · exact .deeper hn (creatable_none h) h

/-- **C125**, failures: a run gets no directory exactly if the chosen directory for all runs is neither writeable nor can be made. In particular a directory named by OCELOT_OUTPUT that exists but is not
writeable makes the run fail although the user's data directory could be used, and the error is not the documented `OutputDirectoryError` if the user's data directory cannot be made. The full property asks
that the user's data directory is used whenever that of OCELOT_OUTPUT cannot, and that the error is always the documented one. -/
theorem C125_failure_partial (E : DirEnv) (dirPath : Option Path) (follow : Bool) (t : Tree) (ht : InDirs t) (hnew : ∀ d, t (E.id :: d) = none) (d : Path) (hd : Home E dirPath t d) :
    ((∃ p, (outputDir E dirPath follow t).2 = .ok p) ↔ t d = some (.dir true) ∨ Creatable t d) ∧
    (∀ e, (outputDir E dirPath follow t).2 = .error e → (dirPath = none ∧ ¬ Available t d → e = .osError) ∧ (¬ (dirPath = none ∧ ¬ Available t d) → e = .outputDirectoryError)) := by
  have key : ∀ (t₁ : Tree), InDirs t₁ → t₁ (E.id :: d) = none → ((t₁ d = some (.dir true) ∨ Creatable t₁ d) ∧ (createRunDir E follow d t₁).2 = .ok (E.id :: d)) ∨
      (¬ (t₁ d = some (.dir true) ∨ Creatable t₁ d) ∧ (createRunDir E follow d t₁).2 = .error .outputDirectoryError) := by
    intro t₁ ht₁ hn
    obtain ⟨-, -, h3⟩ := createRunDir_spec E follow d ht₁ hn
    rcases h3 with ⟨h, h4, -⟩ | ⟨h, h4⟩
    · exact .inl ⟨(creatable_below hn).mp h, h4⟩
    · exact .inr ⟨fun hh => h ((creatable_below hn).mpr hh), by rw [h4]⟩
  unfold outputDir
  cases hdp : dirPath with
  | some d' =>
    have : d' = d := by
      cases hd with
      | given h => rw [hdp] at h; cases h; rfl
      | fromVariable h _ _ => rw [hdp] at h; cases h
      | fallback h _ => rw [hdp] at h; cases h
    subst this
    simp only
    rcases key t ht (hnew d') with ⟨h1, h2⟩ | ⟨h1, h2⟩
    · rw [h2]
      exact ⟨⟨fun _ => h1, fun _ => ⟨_, rfl⟩⟩, fun e h => by cases h⟩
    · rw [h2]
      exact ⟨⟨fun ⟨_, h⟩ => (by cases h), fun h => absurd h h1⟩, fun e h => (by cases h; simp)⟩
  | none =>
    subst hdp
    simp only
    obtain ⟨g1, g2, g3⟩ := getOutputDirectory_spec E ht
    rcases hg : getOutputDirectory E t with ⟨t₁, r⟩
    rw [hg] at g1 g2 g3
    simp only at g1 g2 g3
    have huniq : ∀ d', Home E none t d' → d' = d := by
      intro d' hd'
      cases hd with
      | given h => cases h
      | fromVariable _ hv ha =>
        cases hd' with
        | given h => cases h
        | fromVariable _ hv' _ => rw [hv] at hv'; cases hv'; rfl
        | fallback _ hx => exact absurd ha (hx d hv)
      | fallback _ hx =>
        cases hd' with
        | given h => cases h
        | fromVariable _ hv' ha => exact absurd ha (hx d' hv')
        | fallback _ _ => rfl
    rcases g3 with ⟨d', hd', ha, h4, h5, h6, h7⟩ | ⟨hno, h4⟩
    · have := huniq d' hd'
      subst this
      rw [h4]
      simp only
      have hn : t₁ (E.id :: d') = none := by
        by_contra hne
        have h8 := h7 (E.id :: d') (by rw [hnew d']; exact hne)
        have := h8.length_le
        simp at this
      have heq : (t₁ d' = some (.dir true) ∨ Creatable t₁ d') ↔ (t d' = some (.dir true) ∨ Creatable t d') := by
        by_cases hdn : t d' = none
        · have h1 := h6 hdn
          have h2 : Creatable t d' := by
            rcases ha with ha | ha
            · simp [Tree.isDir, hdn] at ha
            · exact ha
          exact ⟨fun _ => .inr h2, fun _ => .inl h1⟩
        · have h1 : t₁ d' = t d' := by
            rcases g1 d' with h | ⟨h, _⟩
            · exact h
            · exact absurd h hdn
          constructor
          · rintro (h | h)
            · exact .inl (h1 ▸ h)
            · exact absurd (h1 ▸ creatable_none h) hdn
          · rintro (h | h)
            · exact .inl (h1.trans h)
            · exact absurd (creatable_none h) hdn
      rcases key t₁ g2 hn with ⟨h1, h2⟩ | ⟨h1, h2⟩
      · rw [h2]
        exact ⟨⟨fun _ => heq.mp h1, fun _ => ⟨_, rfl⟩⟩, fun e h => by cases h⟩
      · rw [h2]
        exact ⟨⟨fun ⟨_, h⟩ => (by cases h), fun h => absurd (heq.mpr h) h1⟩, fun e h => by cases h; simp [ha]⟩
    · rw [h4]
      have hna := hno d hd
      refine ⟨⟨fun ⟨_, h⟩ => (by cases h), fun h => ?_⟩, fun e h => by cases h; simp [hna]⟩
      exfalso
      apply hna
      rcases h with h | h
      · exact .inl (isDir_iff.mpr ⟨true, h⟩)
      · exact .inr h

/-- **C125**, the cache directory: it is in the user's data directory, made if missing; nothing else is touched, and the function fails if it is not writeable. -/
theorem C125_cache (E : DirEnv) (t : Tree) (ht : InDirs t) :
    OnlyNewDirs t (getCacheDirectory E t).1 ∧ ((∃ p, (getCacheDirectory E t).2 = .ok p) ↔ t ("cache" :: E.base) = some (.dir true) ∨ Creatable t ("cache" :: E.base)) ∧
      ∀ p, (getCacheDirectory E t).2 = .ok p → p = "cache" :: E.base ∧ (getCacheDirectory E t).1 p = some (.dir true) := by
  obtain ⟨h1, h2, h3, h4⟩ := createInBase_spec E "cache" ht
  unfold getCacheDirectory
  rcases hg : createInBase E "cache" t with ⟨t₁, r⟩
  rw [hg] at h1 h2 h3 h4
  simp only at h1 h2 h3 h4
  rcases h4 with ⟨a, b, c, d⟩ | ⟨a, b⟩
  · rw [b]
    simp only
    have hiff : t₁ ("cache" :: E.base) = some (.dir true) ↔ t ("cache" :: E.base) = some (.dir true) ∨ Creatable t ("cache" :: E.base) := by
      by_cases hn : t ("cache" :: E.base) = none
      · rcases a with a | a
        · simp [Tree.isDir, hn] at a
        · exact ⟨fun _ => .inr a, fun _ => d hn⟩
      · have : t₁ ("cache" :: E.base) = t ("cache" :: E.base) := by
          rcases h1 ("cache" :: E.base) with h | ⟨h, _⟩
          · exact h
          · exact absurd h hn
        rw [this]
        exact ⟨.inl, fun h => h.elim id fun h => absurd (creatable_none h) hn⟩
    by_cases hc : checkDir t₁ ("cache" :: E.base) = true
    · rw [if_pos hc]
      have hc' : t₁ ("cache" :: E.base) = some (.dir true) := by simpa [checkDir] using hc
      refine ⟨h1, ⟨fun _ => hiff.mp hc', fun _ => ⟨_, rfl⟩⟩, ?_⟩
      intro p hp
      cases hp
      exact ⟨rfl, hc'⟩
    · rw [if_neg hc]
      refine ⟨h1, ⟨fun ⟨_, h⟩ => (by cases h), fun h => ?_⟩, fun p hp => (by cases hp)⟩
      exact absurd (show checkDir t₁ ("cache" :: E.base) = true by simp [checkDir, hiff.mpr h]) hc
  · rw [b]
    refine ⟨h1, ⟨fun ⟨_, h⟩ => (by cases h), fun h => ?_⟩, fun p hp => (by cases hp)⟩
    exfalso
    apply a
    rcases h with h | h
    · exact .inl (isDir_iff.mpr ⟨true, h⟩)
    · exact .inr h

namespace Spec

/-- A file system with a home directory, and a shared directory that cannot be written to. -/
def exampleDisk : Tree := fun p =>
  if p = [] then some (.dir false) else if p = ["home"] then some (.dir true) else if p = ["shared"] then some (.dir false) else if p = ["notes", "home"] then some .file else none

/-- A user without or with the environment variable. -/
def exampleDirs (v : EnvVar) : DirEnv := ⟨v, ["ocelot", "home"], "4f2a"⟩

end Spec

theorem exampleDisk_inDirs : InDirs exampleDisk := by
  intro c p h
  unfold exampleDisk at h
  unfold Tree.isDir exampleDisk
  by_cases h1 : p = []
  · subst h1; rfl
  · by_cases h2 : p = ["home"]
    · subst h2; rfl
    · exfalso
      apply h
      rw [if_neg (by simp), if_neg (by simp [h1]), if_neg (by simp [h1]), if_neg (by simp [h2])]

theorem exampleDisk_new (d : Path) : exampleDisk ("4f2a" :: d) = none := by
  unfold exampleDisk
  simp

example : (outputDir (exampleDirs .unset) none true exampleDisk).2 = .ok ["4f2a", "model-runs", "ocelot", "home"] := by decide +kernel
example : (outputDir (exampleDirs (.path ["runs", "home"])) none false exampleDisk).2 = .ok ["4f2a", "runs", "home"] := by decide +kernel
/- below a file nothing can be made, so that the user's data directory is used -/
example : (outputDir (exampleDirs (.path ["runs", "notes", "home"])) none false exampleDisk).2 = .ok ["4f2a", "model-runs", "ocelot", "home"] := by decide +kernel
example : Home (exampleDirs (.path ["runs", "home"])) none exampleDisk ["runs", "home"] := .fromVariable rfl rfl (.inr (.here rfl rfl))
/- an existing directory that is not writeable stops the run -/
example : (outputDir (exampleDirs (.path ["shared"])) none false exampleDisk).2 = .error .outputDirectoryError := by decide +kernel
example : (outputDir (exampleDirs .unset) none false exampleDisk).2 = .ok ["4f2a", "model-runs", "ocelot", "home"] := by decide +kernel
/- without a home directory that can be written to the error is another one -/
example : (outputDir ⟨.unset, ["ocelot", "shared"], "4f2a"⟩ none false exampleDisk).2 = .error .osError := by decide +kernel
example : (getCacheDirectory (exampleDirs .unset) exampleDisk).2 = .ok ["cache", "ocelot", "home"] := by decide +kernel

end Ocelot
