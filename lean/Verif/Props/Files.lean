import Verif.Model.Files
import Verif.Props.ModelRun
import Verif.Props.Storage
import Mathlib.Data.List.Infix

/-! # Properties C99–C102: file names, files of a run, followed files, several source directories -/

namespace Ocelot

namespace Spec

/-- Python's `\w` and `\s` on ASCII characters, and the shape of md5 digests in hexadecimal. -/
structure PythonText (E : NameEnv) : Prop where
  word : ∀ c : Char, c.toNat < 128 → E.isWord c = (c.isAlphanum || c == '_')
  space : ∀ c : Char, c.toNat < 128 → E.isSpace c = (decide (9 ≤ c.toNat ∧ c.toNat ≤ 13) || decide (28 ≤ c.toNat ∧ c.toNat ≤ 32))
  hex : ∀ s, (E.md5 s).length = 32 ∧ ∀ c ∈ E.md5 s, c ∈ "0123456789abcdef".toList

/-- A character that is not special to any operating system: not ASCII, a letter, a digit, or one of `_-.`. -/
def Harmless (c : Char) : Prop := c.toNat < 128 → c.isAlphanum = true ∨ c ∈ ['_', '-', '.']

end Spec

open Spec

variable {α : Type}

/-! ## C99 -/

theorem mem_squeeze {sep : Char → Bool} {run : Bool} {s : List Char} {c : Char} (h : c ∈ squeeze sep run s) : c = '-' ∨ (c ∈ s ∧ sep c = false) := by
  induction s generalizing run with
  | nil => simp [squeeze] at h
  | cons d s ih =>
    rw [squeeze] at h
    by_cases hd : sep d = true
    · rw [if_pos hd] at h
      split at h
      · rcases ih h with h | h
        · exact .inl h
        · exact .inr ⟨by simp [h.1], h.2⟩
      · rcases List.mem_cons.mp h with h | h
        · exact .inl h
        · rcases ih h with h | h
          · exact .inl h
          · exact .inr ⟨by simp [h.1], h.2⟩
    · rw [if_neg hd] at h
      rcases List.mem_cons.mp h with rfl | h
      · exact .inr ⟨by simp, by simpa using hd⟩
      · rcases ih h with h | h
        · exact .inl h
        · exact .inr ⟨by simp [h.1], h.2⟩

theorem mem_stripSpace {space : Char → Bool} {s : List Char} {c : Char} (h : c ∈ stripSpace space s) : c ∈ s := by
  unfold stripSpace at h
  rw [List.mem_reverse] at h
  have h1 := (List.dropWhile_sublist _).mem h
  rw [List.mem_reverse] at h1
  exact (List.dropWhile_sublist _).mem h1

/-- The part in front of the digest has only word characters and dashes. -/
theorem mem_safeFilename {E : NameEnv} {s : List Char} {c : Char} (h : c ∈ safeFilename E s) : c = '-' ∨ c = '.' ∨ c ∈ E.md5 s ∨ (E.isWord c = true ∧ E.isSpace c = false) := by
  unfold safeFilename at h
  rcases List.mem_append.mp h with h | h
  · rcases mem_squeeze h with h | ⟨h, hs⟩
    · exact .inl h
    · have := (List.mem_filter.mp (mem_stripSpace h)).2
      simp only [Bool.or_eq_true, Bool.or_eq_false_iff, beq_iff_eq, beq_eq_false_iff_ne] at this hs
      rcases this with (this | this) | this
      · exact .inr (.inr (.inr ⟨this, hs.2⟩))
      · rw [hs.2] at this; cases this
      · exact .inl this
  · rcases List.mem_cons.mp h with h | h
    · exact .inr (.inl h)
    · exact .inr (.inr (.inl h))

theorem hex_alphanum : ∀ c ∈ "0123456789abcdef".toList, c.isAlphanum = true := by decide +kernel

/-- **C99**: a safe file name has no white space, and no character with a meaning for the file system: every ASCII character in it is a letter, a digit, an underscore, a dash or a dot. -/
theorem C99_safe_characters {E : NameEnv} (hE : PythonText E) (s : List Char) : ∀ c ∈ safeFilename E s, Harmless c := by
  intro c hc hlt
  rcases mem_safeFilename hc with rfl | rfl | h | ⟨h, _⟩
  · simp
  · simp
  · exact .inl (hex_alphanum c ((hE.hex s).2 c h))
  · rw [hE.word c hlt] at h
    simp only [Bool.or_eq_true, beq_iff_eq] at h
    rcases h with h | h
    · exact .inl h
    · exact .inr (by simp [h])

/-- **C99**: a safe file name ends with a dot and the 32 digits of the hash of the whole original text, so that it is never empty, `.` or `..`. -/
theorem C99_hash {E : NameEnv} (hE : PythonText E) (s : List Char) : ∃ slug, safeFilename E s = slug ++ '.' :: E.md5 s ∧ 33 ≤ (safeFilename E s).length := by
  refine ⟨_, rfl, ?_⟩
  unfold safeFilename
  rw [List.length_append, List.length_cons, (hE.hex s).1]
  omega

/-- **C99**: texts with different hashes have different safe file names. -/
theorem C99_no_collision {E : NameEnv} (hE : PythonText E) {s t : List Char} (h : safeFilename E s = safeFilename E t) : E.md5 s = E.md5 t := by
  unfold safeFilename at h
  have := (List.append_inj' h (by simp [(hE.hex s).1, (hE.hex t).1])).2
  simpa using this

/-! ## C100 -/

theorem splitSlash_none {s : List Char} (h : '/' ∉ s) : splitSlash s = [s] := by
  induction s with
  | nil => rfl
  | cons c s ih =>
    have h1 : ¬ c = '/' := fun hc => h (by simp [hc])
    rw [splitSlash, if_neg h1, ih fun hc => h (by simp [hc])]

theorem splitSlash_append {a s : List Char} (h : '/' ∉ a) : splitSlash (a ++ '/' :: s) = a :: splitSlash s := by
  induction a with
  | nil => simp [splitSlash]
  | cons c a ih =>
    have h1 : ¬ c = '/' := fun hc => h (by simp [hc])
    rw [List.cons_append, splitSlash, if_neg h1, ih fun hc => h (by simp [hc])]

theorem splitSlash_ne_nil (s : List Char) : splitSlash s ≠ [] := by
  cases s with
  | nil => simp [splitSlash]
  | cons c s =>
    rw [splitSlash]
    split
    · simp
    · split <;> simp

theorem indexText_digit {i : ℕ} {c : Char} (h : c ∈ indexText i) : c.isDigit = true := Nat.isDigit_of_mem_toDigits (by norm_num) (by norm_num) h

theorem indexText_injective : Function.Injective indexText := by
  intro i j h
  have hi := @Nat.ofDigitChars_ten_toDigits i
  have hj := @Nat.ofDigitChars_ten_toDigits j
  unfold indexText at h
  rw [h, hj] at hi
  exact hi.symm

/-- A number, a dot and anything: the number can be read off. -/
theorem index_dot {i j : ℕ} {s t : List Char} (h : indexText i ++ '.' :: s = indexText j ++ '.' :: t) : i = j := by
  have key : ∀ (a b : List Char), '.' ∉ a → '.' ∉ b → a ++ '.' :: s = b ++ '.' :: t → a = b := by
    intro a
    induction a with
    | nil =>
      intro b _ hb h
      cases b with
      | nil => rfl
      | cons c b =>
        injection h with h1 _
        exact absurd (h1 ▸ List.mem_cons_self) hb
    | cons c a ih =>
      intro b ha hb h
      cases b with
      | nil =>
        injection h with h1 _
        exact absurd (h1 ▸ List.mem_cons_self) ha
      | cons d b =>
        injection h with h1 h2
        rw [h1, ih b (fun hc => ha (by simp [hc])) (fun hc => hb (by simp [hc])) h2]
  apply indexText_injective
  refine key _ _ ?_ ?_ h <;>
  · intro hc
    exact absurd (indexText_digit hc) (by decide)

theorem resultName_no_slash {E : NameEnv} (hE : PythonText E) (i : ℕ) (name : List Char) {c : Char} (hc : c = '/' ∨ c = Char.ofNat 0) : c ∉ resultName E i name := by
  intro h
  unfold resultName at h
  rw [List.append_assoc, List.mem_append] at h
  rcases h with h | h
  · have := indexText_digit h
    rcases hc with rfl | rfl <;> exact absurd this (by decide)
  · rw [List.cons_append, List.mem_cons] at h
    rcases h with h | h
    · rcases hc with rfl | rfl <;> exact absurd h (by decide)
    · rcases List.mem_append.mp h with h | h
      · have := C99_safe_characters hE name c h
        rcases hc with rfl | rfl <;> exact absurd (this (by decide)) (by decide)
      · rcases hc with rfl | rfl <;> exact absurd h (by decide)

namespace Spec

/-- The datasets that are followed: those whose file path contains the text. -/
def followedOf (cfg : FileSettings α) (w : List Char) (data : List α) : List α := data.filter fun ds => w <:+: cfg.path ds

/-- The file of the intermediate result after function `p.1`, number `p.2`, if the strategy asks for it. -/
def resultFile (E : NameEnv) (cfg : FileSettings α) (states : ℕ → List α) (p : Fn α × ℕ) : List (List (List Char) × Content α) :=
  if cfg.save p.2 = true then [([resultName E p.2 (p.1.name.getD "").toList], .result (states (p.2 + 1)))] else []

/-- The file of the followed datasets after function `p.1`, number `p.2`, if there are any. -/
def followFile (cfg : FileSettings α) (states : ℕ → List α) (p : Fn α × ℕ) : List (List (List Char) × Content α) :=
  match cfg.follow with
  | none => []
  | some w =>
    if w = [] ∨ followedOf cfg w (states (p.2 + 1)) = [] then []
    else [(["follow".toList, Nat.toDigits 10 p.2 ++ '.' :: w ++ ".pickle".toList], .followed p.2 (p.1.name.getD "").toList w (followedOf cfg w (states (p.2 + 1))))]

/-- All files of a run: the logs, then per function its result and the followed datasets, then the final result. -/
def filesOfRun (E : NameEnv) (cfg : FileSettings α) (fs : List (Fn α)) (states : ℕ → List α) : List (List (List Char) × Content α) :=
  [(["report.log.json".toList], .log), (["detailed.log.json".toList], .log)] ++ fs.zipIdx.flatMap (fun p => resultFile E cfg states p ++ followFile cfg states p) ++
    [(["final-results.pickle".toList], .result (states fs.length))]

/-- The text to follow can be part of a file name. -/
def PlainFollow (cfg : FileSettings α) : Prop := ∀ w, cfg.follow = some w → '/' ∉ w ∧ Char.ofNat 0 ∉ w

end Spec

theorem isInfixText_iff (sub s : List Char) : isInfixText sub s = true ↔ sub <:+: s := by
  unfold isInfixText
  rw [List.any_eq_true]
  constructor
  · rintro ⟨t, ht, hp⟩
    exact List.infix_iff_prefix_suffix.mpr ⟨t, List.isPrefixOf_iff_prefix.mp hp, List.mem_tails _ _ |>.mp ht⟩
  · intro h
    obtain ⟨t, hp, hs⟩ := List.infix_iff_prefix_suffix.mp h
    exact ⟨t, (List.mem_tails _ _).mpr hs, List.isPrefixOf_iff_prefix.mpr hp⟩

theorem dictSet_fresh {κ β : Type} [DecidableEq κ] {k : κ} {v : β} {d : List (κ × β)} (h : ∀ p ∈ d, p.1 ≠ k) : dictSet k v d = d ++ [(k, v)] := by
  induction d with
  | nil => rfl
  | cons p d ih =>
    obtain ⟨k', v'⟩ := p
    have hk : ¬ k' = k := h (k', v') (by simp)
    rw [dictSet, if_neg hk, ih fun q hq => h q (by simp [hq]), List.cons_append]

/-- The name of a file that belongs to number `i`. -/
def NumberedPath (E : NameEnv) (i : ℕ) (path : List (List Char)) : Prop :=
  (∃ name, path = [resultName E i name]) ∨ ∃ w, path = ["follow".toList, indexText i ++ '.' :: w]

theorem numberedPath_unique {E : NameEnv} {i j : ℕ} {path : List (List Char)} (hi : NumberedPath E i path) (hj : NumberedPath E j path) : i = j := by
  rcases hi with ⟨n, rfl⟩ | ⟨w, rfl⟩
  · rcases hj with ⟨m, h⟩ | ⟨w, h⟩
    · have := List.cons.inj h |>.1
      unfold resultName at this
      simp only [List.append_assoc, List.cons_append] at this
      exact index_dot this
    · simp at h
  · rcases hj with ⟨m, h⟩ | ⟨v, h⟩
    · simp at h
    · have := List.cons.inj (List.cons.inj h |>.2) |>.1
      exact index_dot this

theorem following_eq (cfg : FileSettings α) {w : List Char} (h : cfg.following = some w) : cfg.follow = some w ∧ w ≠ [] := by
  unfold FileSettings.following at h
  split at h
  · cases h
  · next hne =>
    refine ⟨h, ?_⟩
    rintro rfl
    exact hne h

theorem following_none (cfg : FileSettings α) (h : cfg.following = none) : cfg.follow = none ∨ cfg.follow = some [] := by
  unfold FileSettings.following at h
  split at h
  · next h1 => exact .inr h1
  · exact .inl h

theorem saveResult_eq {E : NameEnv} (hE : PythonText E) (cfg : FileSettings α) (i : ℕ) (name : List Char) (data : List α) (o : OutDir α) (hdir : [] ∈ o.dirs)
    (hfresh : ∀ p ∈ o.files, ¬ NumberedPath E i p.1) :
    saveResult E cfg i name data o = .ok { o with files := o.files ++ if cfg.save i = true then [([resultName E i name], .result data)] else [] } := by
  unfold saveResult
  by_cases hs : cfg.save i = true
  · rw [if_pos hs, if_pos hs]
    unfold OutDir.write
    have h0 := resultName_no_slash hE i name (.inr rfl)
    have h1 := splitSlash_none (resultName_no_slash hE i name (.inl rfl))
    rw [if_neg h0, h1, if_pos (by simpa using hdir), dictSet_fresh]
    intro p hp he
    exact hfresh p hp (.inl ⟨name, he⟩)
  · rw [if_neg hs, if_neg hs, List.append_nil]

theorem followName_plain {i : ℕ} {w : List Char} (h : '/' ∉ w) : splitSlash (followName i w) = ["follow".toList, indexText i ++ '.' :: w ++ ".pickle".toList] := by
  have : followName i w = "follow".toList ++ '/' :: (indexText i ++ '.' :: w ++ ".pickle".toList) := by
    unfold followName
    rw [show "follow/".toList = "follow".toList ++ ['/'] by decide +kernel]
    simp
  rw [this, splitSlash_append (by decide +kernel), splitSlash_none]
  intro hc
  rw [List.append_assoc, List.mem_append] at hc
  rcases hc with hc | hc
  · exact absurd (indexText_digit hc) (by decide)
  · rw [List.cons_append, List.mem_cons, List.mem_append] at hc
    rcases hc with hc | hc | hc
    · exact absurd hc (by decide)
    · exact h hc
    · exact absurd hc (by decide +kernel)

theorem null_followName {i : ℕ} {w : List Char} (h : Char.ofNat 0 ∉ w) : Char.ofNat 0 ∉ followName i w := by
  intro hc
  unfold followName at hc
  simp only [List.append_assoc, List.cons_append, List.mem_append, List.mem_cons] at hc
  rcases hc with hc | hc | hc | hc | hc
  · exact absurd hc (by decide +kernel)
  · exact absurd (indexText_digit hc) (by decide)
  · exact absurd hc (by decide)
  · exact h hc
  · exact absurd hc (by decide +kernel)

theorem selected_eq (cfg : FileSettings α) (w : List Char) (data : List α) : (data.filter fun ds => isInfixText w (cfg.path ds)) = followedOf cfg w data := by
  unfold followedOf
  apply List.filter_congr
  intro ds _
  rw [Bool.eq_iff_iff, isInfixText_iff, decide_eq_true_eq]

/-- None of these datasets is followed. -/
def Unfollowed (cfg : FileSettings α) (data : List α) : Prop := ∀ w, cfg.follow = some w → followedOf cfg w data = []

theorem saveFollowed_eq (cfg : FileSettings α) (states : ℕ → List α) (f : Fn α) (i : ℕ) (name : String) (hname : f.name = some name)
    (hplain : PlainFollow cfg ∨ Unfollowed cfg (states (i + 1))) (o : OutDir α) (hdir : o.dirs = (newOutDir cfg).dirs) (hfresh : ∀ p ∈ o.files, ∀ w, p.1 ≠ ["follow".toList, indexText i ++ '.' :: w]) :
    saveFollowed cfg i name.toList (states (i + 1)) o = .ok { o with files := o.files ++ followFile cfg states (f, i) } := by
  unfold saveFollowed followFile
  rcases hf : cfg.following with _ | w
  · rcases following_none cfg hf with h | h <;> simp [h]
  · obtain ⟨h, hw⟩ := following_eq cfg hf
    simp only [h, selected_eq, hw, false_or]
    by_cases he : followedOf cfg w (states (i + 1)) = []
    · simp [he]
    · obtain ⟨h1, h2⟩ := hplain.resolve_right (fun hu => he (hu w h)) w h
      rw [if_neg he, if_neg (by simpa using he)]
      unfold OutDir.write
      rw [if_neg (null_followName h2), followName_plain h1, if_pos (by rw [hdir]; unfold newOutDir; simp [hf]), dictSet_fresh]
      · simp only [hname, Option.getD_some]
        rfl
      · intro p hp
        rw [List.append_assoc, List.cons_append]
        exact hfresh p hp _

theorem resultFile_numbered {E : NameEnv} {cfg : FileSettings α} {states : ℕ → List α} {p : Fn α × ℕ} {q} (h : q ∈ resultFile E cfg states p ++ followFile cfg states p) : NumberedPath E p.2 q.1 := by
  rcases List.mem_append.mp h with h | h
  · unfold resultFile at h
    split at h
    · rw [List.mem_singleton.mp h]; exact .inl ⟨_, rfl⟩
    · simp at h
  · unfold followFile at h
    split at h
    · simp at h
    · split at h
      · simp at h
      · rw [List.mem_singleton.mp h]
        next w _ _ => exact .inr ⟨w ++ ".pickle".toList, by simp [indexText]⟩

theorem runFiles_eq {E : NameEnv} (hE : PythonText E) (cfg : FileSettings α) (states : ℕ → List α) (fs rest : List (Fn α)) (i : ℕ) (o : OutDir α)
    (hplain : ∀ k < fs.length, PlainFollow cfg ∨ Unfollowed cfg (states (i + k + 1)))
    (h : ∀ (k : ℕ) (f : Fn α), fs[k]? = some f → f.name.isSome ∧ (f.run (states (i + k))).2 = .ok (states (i + k + 1)))
    (hdir : o.dirs = (newOutDir cfg).dirs) (hfresh : ∀ p ∈ o.files, ∀ j, NumberedPath E j p.1 → j < i) :
    runFiles E cfg i (fs ++ rest) (states i) o =
      runFiles E cfg (i + fs.length) rest (states (i + fs.length)) { o with files := o.files ++ (fs.zipIdx i).flatMap fun p => resultFile E cfg states p ++ followFile cfg states p } := by
  induction fs generalizing i o with
  | nil => simp
  | cons f fs ih =>
    obtain ⟨hn, hr⟩ := h 0 f rfl
    obtain ⟨name, hname⟩ := Option.isSome_iff_exists.mp hn
    rw [Nat.add_zero] at hr
    have hroot : [] ∈ o.dirs := by
      rw [hdir]; unfold newOutDir
      rcases cfg.following <;> simp
    have h1 := saveResult_eq hE cfg i name.toList (states (i + 1)) o hroot (fun p hp hc => absurd (hfresh p hp i hc) (by omega))
    have h2 := saveFollowed_eq cfg states f i name hname (by simpa using hplain 0 (by simp))
      { o with files := o.files ++ if cfg.save i = true then [([resultName E i name.toList], .result (states (i + 1)))] else [] } hdir (by
        intro p hp w he
        rcases List.mem_append.mp hp with hp | hp
        · exact absurd (hfresh p hp i (.inr ⟨w, he⟩)) (by omega)
        · split at hp
          · rw [List.mem_singleton.mp hp] at he
            simp at he
          · simp at hp)
    rw [List.cons_append, runFiles]
    simp only [hname, hr, h1, h2]
    rw [ih (i + 1) { o with files := (o.files ++ if cfg.save i = true then [([resultName E i name.toList], .result (states (i + 1)))] else []) ++ followFile cfg states (f, i) } (by
      intro k hk
      rw [show i + 1 + k + 1 = i + (k + 1) + 1 by omega]
      exact hplain (k + 1) (by simpa using hk)) (by
      intro k g hg
      have := h (k + 1) g hg
      rw [show i + 1 + k = i + (k + 1) by omega]
      exact this) hdir (by
      intro p hp j hj
      rw [List.append_assoc] at hp
      rcases List.mem_append.mp hp with hp | hp
      · exact lt_trans (hfresh p hp j hj) (by omega)
      · have : NumberedPath E i p.1 := resultFile_numbered (E := E) (cfg := cfg) (states := states) (p := (f, i)) (by
          rcases List.mem_append.mp hp with hp | hp
          · apply List.mem_append_left
            unfold resultFile
            simpa [hname] using hp
          · exact List.mem_append_right _ hp)
        rw [numberedPath_unique hj this]
        omega)]
    rw [show i + 1 + fs.length = i + (f :: fs).length by simp; omega, List.zipIdx_cons, List.flatMap_cons]
    simp only [List.append_assoc]
    congr 4
    unfold resultFile
    simp [hname]

theorem digits_not_letter (i : ℕ) {c : Char} (hc : c.isDigit = false) (s t : List Char) : indexText i ++ s ≠ c :: t := by
  intro h
  have hne : indexText i ≠ [] := Nat.toDigits_ne_nil
  rcases hi : indexText i with _ | ⟨d, l⟩
  · exact hne hi
  · rw [hi] at h
    injection h with h1 _
    have := indexText_digit (i := i) (c := d) (by rw [hi]; simp)
    rw [h1, hc] at this
    cases this

theorem not_numbered {E : NameEnv} {c : Char} {t : List Char} (hc : c.isDigit = false) (j : ℕ) : ¬ NumberedPath E j [c :: t] := by
  rintro (⟨n, h⟩ | ⟨w, h⟩)
  · have := List.cons.inj h |>.1
    unfold resultName at this
    rw [List.append_assoc] at this
    exact digits_not_letter j hc _ _ this.symm
  · simp at h

/-- **C100**: a run whose functions all succeed leaves exactly the documented files: the logs, after every function that the strategy chooses its result, after every function the followed datasets if
there are any, and the final result; each file has its own path, so that none overwrites another. -/
theorem C100_files_of_run {E : NameEnv} (hE : PythonText E) (cfg : FileSettings α) (hplain : PlainFollow cfg) (fs : List (Fn α)) (states : ℕ → List α) (h : Succeeds fs states) :
    (runInDirectory E cfg fs (states 0)).2 = .ok (states fs.length) ∧ (runInDirectory E cfg fs (states 0)).1.files = filesOfRun E cfg fs states ∧
      ((filesOfRun E cfg fs states).map (·.1)).Nodup := by
  have hstart : (newOutDir cfg : OutDir α).files = [(["report.log.json".toList], .log), (["detailed.log.json".toList], .log)] := rfl
  have hr : ∀ j : ℕ, ¬ NumberedPath E j ["report.log.json".toList] := not_numbered (c := 'r') (t := "eport.log.json".toList) (by decide)
  have hd : ∀ j : ℕ, ¬ NumberedPath E j ["detailed.log.json".toList] := not_numbered (c := 'd') (t := "etailed.log.json".toList) (by decide)
  have hf : ∀ j : ℕ, ¬ NumberedPath E j ["final-results.pickle".toList] := not_numbered (c := 'f') (t := "inal-results.pickle".toList) (by decide)
  have hrun := runFiles_eq hE cfg states fs [] 0 (newOutDir cfg) (fun _ _ => .inl hplain) (by simpa [Succeeds] using h) rfl (by
    intro p hp j hj
    rw [hstart] at hp
    simp only [List.mem_cons, List.not_mem_nil, or_false] at hp
    rcases hp with rfl | rfl
    · exact absurd hj (hr j)
    · exact absurd hj (hd j))
  rw [List.append_nil, Nat.zero_add, runFiles, hstart] at hrun
  have hmid : ∀ q ∈ fs.zipIdx.flatMap (fun p => resultFile E cfg states p ++ followFile cfg states p), ∃ j, NumberedPath E j q.1 := by
    intro q hq
    obtain ⟨p, _, hq⟩ := List.mem_flatMap.mp hq
    exact ⟨p.2, resultFile_numbered hq⟩
  have hwrite : OutDir.write { (newOutDir cfg : OutDir α) with files := [(["report.log.json".toList], .log), (["detailed.log.json".toList], .log)] ++ fs.zipIdx.flatMap fun p => resultFile E cfg states p ++ followFile cfg states p } finalName (.result (states fs.length)) =
      .ok { (newOutDir cfg : OutDir α) with files := filesOfRun E cfg fs states } := by
    unfold OutDir.write
    rw [if_neg (by decide +kernel), show splitSlash finalName = ["final-results.pickle".toList] by decide +kernel,
      if_pos (by unfold newOutDir; rcases cfg.following <;> simp), dictSet_fresh]
    · rfl
    · intro p hp he
      rcases List.mem_append.mp hp with hp | hp
      · simp only [List.mem_cons, List.not_mem_nil, or_false] at hp
        rcases hp with rfl | rfl
        · exact absurd (show ["report.log.json".toList] = ["final-results.pickle".toList] from he) (by decide +kernel)
        · exact absurd (show ["detailed.log.json".toList] = ["final-results.pickle".toList] from he) (by decide +kernel)
      · obtain ⟨j, hj⟩ := hmid p hp
        rw [he] at hj
        exact hf j hj
  unfold runInDirectory
  simp only [hrun, hwrite, true_and]
  unfold filesOfRun
  rw [List.map_append, List.map_append, List.nodup_append, List.nodup_append]
  refine ⟨⟨show ([["report.log.json".toList], ["detailed.log.json".toList]]).Nodup by decide +kernel, ?_, ?_⟩, by simp, ?_⟩
  · have key : ∀ (gs : List (Fn α)) (k : ℕ), (((gs.zipIdx k).flatMap fun p => resultFile E cfg states p ++ followFile cfg states p).map (·.1)).Nodup := by
      intro gs
      induction gs with
      | nil => simp
      | cons g gs ih =>
        intro k
        rw [List.zipIdx_cons, List.flatMap_cons, List.map_append, List.nodup_append]
        refine ⟨?_, ih _, ?_⟩
        · rw [List.map_append, List.nodup_append]
          refine ⟨?_, ?_, ?_⟩
          · unfold resultFile; split <;> simp
          · unfold followFile
            split
            · simp
            · split <;> simp
          · intro a ha b hb
            obtain ⟨x, hx, rfl⟩ := List.mem_map.mp ha
            obtain ⟨y, hy, rfl⟩ := List.mem_map.mp hb
            unfold resultFile at hx
            unfold followFile at hy
            split at hx
            · rw [List.mem_singleton.mp hx]
              split at hy
              · simp at hy
              · split at hy
                · simp at hy
                · rw [List.mem_singleton.mp hy]; simp
            · simp at hx
        · intro a ha b hb he
          obtain ⟨x, hx, rfl⟩ := List.mem_map.mp ha
          obtain ⟨y, hy, rfl⟩ := List.mem_map.mp hb
          obtain ⟨q, hq, hy⟩ := List.mem_flatMap.mp hy
          have h1 := resultFile_numbered hx
          have h2 := resultFile_numbered hy
          rw [← he] at h2
          have := numberedPath_unique h1 h2
          have := List.le_snd_of_mem_zipIdx hq
          simp only at *
          omega
    exact key fs 0
  · intro a ha b hb he
    obtain ⟨y, hy, rfl⟩ := List.mem_map.mp hb
    obtain ⟨j, hj⟩ := hmid y hy
    simp only [List.map_cons, List.map_nil, List.mem_cons, List.not_mem_nil, or_false] at ha
    rcases ha with rfl | rfl
    · rw [← he] at hj; exact hr j hj
    · rw [← he] at hj; exact hd j hj
  · intro a ha b hb he
    simp only [List.map_cons, List.map_nil, List.mem_cons, List.not_mem_nil, or_false] at hb
    rw [← List.map_append] at ha
    obtain ⟨x, hx, rfl⟩ := List.mem_map.mp ha
    rw [hb] at he
    rcases List.mem_append.mp hx with hx | hx
    · simp only [List.mem_cons, List.not_mem_nil, or_false] at hx
      rcases hx with rfl | rfl
      · exact absurd (show ["report.log.json".toList] = ["final-results.pickle".toList] from he) (by decide +kernel)
      · exact absurd (show ["detailed.log.json".toList] = ["final-results.pickle".toList] from he) (by decide +kernel)
    · obtain ⟨j, hj⟩ := hmid x hx
      rw [he] at hj
      exact hf j hj

theorem lookup_file {κ β : Type} [BEq κ] [LawfulBEq κ] {d : List (κ × β)} (hd : (d.map (·.1)).Nodup) {k : κ} {v : β} (h : (k, v) ∈ d) : d.lookup k = some v := by
  induction d with
  | nil => simp at h
  | cons p d ih =>
    obtain ⟨k', v'⟩ := p
    rw [List.map_cons, List.nodup_cons] at hd
    rcases List.mem_cons.mp h with h' | h2
    · cases h'
      simp [List.lookup]
    · have hne : (k == k') = false := by
        rw [beq_eq_false_iff_ne]
        rintro rfl
        exact hd.1 (List.mem_map.mpr ⟨_, h2, rfl⟩)
      rw [List.lookup, hne]
      exact ih hd.2 h2

/-- **C100**: after such a run the file named by the number and the function holds the data after that function, if the strategy chooses the number; without that there is no file with this number. -/
theorem C100_result_file {E : NameEnv} (hE : PythonText E) (cfg : FileSettings α) (hplain : PlainFollow cfg) (fs : List (Fn α)) (states : ℕ → List α) (h : Succeeds fs states) {i : ℕ} {f : Fn α}
    {name : String} (hf : fs[i]? = some f) (hname : f.name = some name) :
    (cfg.save i = true → (runInDirectory E cfg fs (states 0)).1.files.lookup [resultName E i name.toList] = some (.result (states (i + 1)))) ∧
      (cfg.save i = false → ∀ other, (runInDirectory E cfg fs (states 0)).1.files.lookup [resultName E i other] = none) := by
  obtain ⟨_, hfiles, hnodup⟩ := C100_files_of_run hE cfg hplain fs states h
  rw [hfiles]
  have hmem : (f, i) ∈ fs.zipIdx := List.mem_zipIdx_iff_getElem?.mpr hf
  constructor
  · intro hs
    have : ([resultName E i name.toList], Content.result (states (i + 1))) ∈ filesOfRun E cfg fs states := by
      unfold filesOfRun
      apply List.mem_append_left
      apply List.mem_append_right
      refine List.mem_flatMap.mpr ⟨(f, i), hmem, List.mem_append_left _ ?_⟩
      unfold resultFile
      simp [hs, hname]
    exact lookup_file hnodup this
  · intro hs other
    rw [List.lookup_eq_none_iff]
    intro q hq
    rw [bne_iff_ne]
    intro he
    have hnum : NumberedPath E i q.1 := .inl ⟨other, he.symm⟩
    unfold filesOfRun at hq
    simp only [List.append_assoc, List.mem_append, List.mem_cons, List.not_mem_nil, or_false] at hq
    rcases hq with (rfl | rfl) | hq | rfl
    · exact not_numbered (c := 'r') (t := "eport.log.json".toList) (by decide) i hnum
    · exact not_numbered (c := 'd') (t := "etailed.log.json".toList) (by decide) i hnum
    · obtain ⟨p, hp, hq⟩ := List.mem_flatMap.mp hq
      have hpi : i = p.2 := numberedPath_unique hnum (resultFile_numbered hq)
      rcases List.mem_append.mp hq with hq | hq
      · unfold resultFile at hq
        rw [← hpi, hs] at hq
        simp at hq
      · unfold followFile at hq
        split at hq
        · simp at hq
        · split at hq
          · simp at hq
          · rw [List.mem_singleton.mp hq] at he
            simp at he
    · exact not_numbered (c := 'f') (t := "inal-results.pickle".toList) (by decide) i hnum

/-! ## C101 -/

theorem splitSlash_slash {s : List Char} (h : '/' ∈ s) : ∃ a b t, splitSlash s = a :: b :: t := by
  induction s with
  | nil => simp at h
  | cons c s ih =>
    rw [splitSlash]
    by_cases hc : c = '/'
    · rw [if_pos hc]
      rcases hs : splitSlash s with _ | ⟨b, t⟩
      · exact absurd hs (splitSlash_ne_nil s)
      · exact ⟨_, _, _, rfl⟩
    · rw [if_neg hc]
      obtain ⟨a, b, t, hs⟩ := ih (by
        rcases List.mem_cons.mp h with h | h
        · exact absurd h.symm hc
        · exact h)
      rw [hs]
      exact ⟨_, _, _, rfl⟩

/-- **C101** is false for paths: if the text to follow contains a directory separator, the first function after which a followed dataset is there stops the run with an `OSError`, since the file would lie in a
directory that does not exist. -/
theorem C101_follow_path {E : NameEnv} (hE : PythonText E) (cfg : FileSettings α) {w : List Char} (hw : cfg.follow = some w) (hslash : '/' ∈ w) (hnull : Char.ofNat 0 ∉ w) (gs rest : List (Fn α)) {f : Fn α} {name : String}
    (states : ℕ → List α) (hgs : Succeeds gs states) (hno : ∀ k < gs.length, followedOf cfg w (states (k + 1)) = []) (hname : f.name = some name) {d : List α} (hrun : (f.run (states gs.length)).2 = .ok d)
    (hmatch : followedOf cfg w d ≠ []) : (runInDirectory E cfg (gs ++ f :: rest) (states 0)).2 = .error (.raised .osError) := by
  have hfol : cfg.following = some w := by
    unfold FileSettings.following
    rw [hw]
    split
    · next h => cases h; simp at hslash
    · rfl
  have h1 := runFiles_eq hE cfg states gs (f :: rest) 0 (newOutDir cfg) (fun k hk => .inr (by
      intro v hv
      rw [hw] at hv
      cases hv
      simpa using hno k hk)) (by simpa [Succeeds] using hgs) rfl (by
    intro p hp j hj
    change p ∈ [(["report.log.json".toList], Content.log), (["detailed.log.json".toList], .log)] at hp
    simp only [List.mem_cons, List.not_mem_nil, or_false] at hp
    rcases hp with rfl | rfl
    · exact absurd hj (not_numbered (c := 'r') (t := "eport.log.json".toList) (by decide) j)
    · exact absurd hj (not_numbered (c := 'd') (t := "etailed.log.json".toList) (by decide) j))
  rw [Nat.zero_add] at h1
  unfold runInDirectory
  rw [h1]
  generalize hfiles : (newOutDir cfg : OutDir α).files ++ _ = files
  have hfail : ∀ fl : List (List (List Char) × Content α), saveFollowed cfg gs.length name.toList d { (newOutDir cfg : OutDir α) with files := fl } = .error .osError := by
    intro fl
    unfold saveFollowed
    simp only [hfol, selected_eq]
    rw [if_neg (by simpa using hmatch)]
    unfold OutDir.write
    rw [if_neg (null_followName hnull), if_neg]
    have hsplit : followName gs.length w = "follow".toList ++ '/' :: (indexText gs.length ++ '.' :: w ++ ".pickle".toList) := by
      unfold followName
      rw [show "follow/".toList = "follow".toList ++ ['/'] by decide +kernel]
      simp
    rw [hsplit, splitSlash_append (by decide +kernel)]
    obtain ⟨a, b, t, hs⟩ := splitSlash_slash (s := indexText gs.length ++ '.' :: w ++ ".pickle".toList) (by simp [hslash])
    rw [hs]
    unfold newOutDir
    simp [hfol]
  rw [runFiles]
  simp only [hname, hrun]
  rcases hsr : saveResult E cfg gs.length name.toList d { (newOutDir cfg : OutDir α) with files := files } with e | o
  · exfalso
    unfold saveResult at hsr
    split at hsr
    · unfold OutDir.write at hsr
      rw [if_neg (resultName_no_slash hE _ _ (.inr rfl)), splitSlash_none (resultName_no_slash hE _ _ (.inl rfl)), if_pos (by unfold newOutDir; simp [hfol])] at hsr
      cases hsr
    · cases hsr
  · have ho : ∃ fl, o = { (newOutDir cfg : OutDir α) with files := fl } := by
      unfold saveResult at hsr
      split at hsr
      · unfold OutDir.write at hsr
        rw [if_neg (resultName_no_slash hE _ _ (.inr rfl)), splitSlash_none (resultName_no_slash hE _ _ (.inl rfl)), if_pos (by unfold newOutDir; simp [hfol])] at hsr
        injection hsr with hsr
        exact ⟨_, hsr.symm⟩
      · injection hsr with hsr
        exact ⟨_, hsr.symm⟩
    obtain ⟨fl, rfl⟩ := ho
    simp only [hfail]

/-! ## C102 -/

namespace Spec

/-- Absolute paths stay as they are, and the md5 hashes of the paths in question differ. -/
structure DistinctPaths (P : PathEnv) (a : String) (events : List (String × StoreEvent)) : Prop where
  absolute : ∀ p, P.abspath (P.abspath p) = P.abspath p
  hashes : ∀ ev ∈ events, P.abspath ev.1 ≠ P.abspath a → P.md5 (P.abspath ev.1 ++ "8") ≠ P.md5 (P.abspath a ++ "8")

/-- What happened in the directory `a`. -/
def eventsIn (P : PathEnv) (a : String) (events : List (String × StoreEvent)) : List StoreEvent := (events.filter fun ev => P.abspath ev.1 = P.abspath a).map (·.2)

end Spec

theorem string_append_inj {a b c d : String} (h : a ++ b ++ c = a ++ d ++ c) : b = d := by
  have h1 : (a ++ b ++ c).toList = (a ++ d ++ c).toList := by rw [h]
  simp only [String.toList_append, List.append_assoc] at h1
  exact String.toList_inj.mp (List.append_cancel_right (List.append_cancel_left h1))

/-- **C102**: what is done with other source directories, in whatever order, has no influence on a source directory and its cache file, as long as the md5 hashes of the paths differ. -/
theorem C102_independent (P : PathEnv) (E : ExtractEnv α) (a : String) (events : List (String × StoreEvent)) (h : DistinctPaths P a events) (w : World α) :
    (events.foldl (worldStep P E) w).store P a = (eventsIn P a events).foldl (storeStep E) (w.store P a) := by
  induction events generalizing w with
  | nil => rfl
  | cons ev events ih =>
    have hrest : DistinctPaths P a events := ⟨h.absolute, fun e he => h.hashes e (by simp [he])⟩
    rw [List.foldl_cons, ih hrest]
    by_cases heq : P.abspath ev.1 = P.abspath a
    · have h1 : eventsIn P a (ev :: events) = ev.2 :: eventsIn P a events := by simp [eventsIn, heq]
      rw [h1, List.foldl_cons]
      congr 1
      unfold worldStep World.put World.store
      simp [heq]
    · have h1 : eventsIn P a (ev :: events) = eventsIn P a events := by simp [eventsIn, heq]
      rw [h1]
      congr 1
      have hc : cachePath P (P.abspath a) ≠ cachePath P (P.abspath ev.1) := by
        intro hc
        unfold cachePath ioVersion at hc
        rw [h.absolute, h.absolute] at hc
        exact h.hashes ev (by simp) heq (string_append_inj hc).symm
      unfold worldStep World.put World.store
      simp [Ne.symm heq, hc]

/-- **C102**: hence the cache of each of several source directories is fresh, under the conditions of C63 on what happens in that directory. -/
theorem C102_fresh_partial (P : PathEnv) (E : ExtractEnv α) (a : String) (events : List (String × StoreEvent)) (h : DistinctPaths P a events) (w : World α) (hw : w.caches (cachePath P (P.abspath a)) = none)
    (hdir : NoHiddenSpold E (w.dirs (P.abspath a))) (t : ℚ) (hist : History E t (eventsIn P a events))
    (hvis : ∃ f ∈ ((events.foldl (worldStep P E) w).dirs (P.abspath a)).files, f.name.toList.head? ≠ some '.') :
    extractFrom P E (events.foldl (worldStep P E) w) a true = extractAll E ((events.foldl (worldStep P E) w).dirs (P.abspath a)) := by
  have h1 := C102_independent P E a events h w
  have h2 : w.store P a = ⟨w.dirs (P.abspath a), none⟩ := by unfold World.store; rw [hw]
  rw [h2] at h1
  change (events.foldl (worldStep P E) w).store P a = after E (w.dirs (P.abspath a)) (eventsIn P a events) at h1
  have h3 : (events.foldl (worldStep P E) w).dirs (P.abspath a) = (after E (w.dirs (P.abspath a)) (eventsIn P a events)).dir := by rw [← h1]; rfl
  unfold extractFrom
  rw [h1, h3]
  rw [h3] at hvis
  exact C63_fresh_partial E _ hdir t _ hist [] 0 hvis

/-! ## Examples -/

/-- Texts of ASCII characters only; a hash that tells the length. -/
def Spec.exampleNames : NameEnv :=
  ⟨id, fun c => c.isAlphanum || c == '_', fun c => decide (9 ≤ c.toNat ∧ c.toNat ≤ 13) || decide (28 ≤ c.toNat ∧ c.toNat ≤ 32), fun s => List.replicate (31 - min 31 s.length) '0' ++ '1' :: List.replicate (min 31 s.length) '0'⟩

theorem exampleNames_python : PythonText exampleNames := by
  refine ⟨fun _ _ => rfl, fun _ _ => rfl, ?_⟩
  intro s
  constructor
  · simp only [exampleNames, List.length_append, List.length_cons, List.length_replicate]
    omega
  · intro c hc
    simp only [exampleNames, List.mem_append, List.mem_cons, List.mem_replicate] at hc
    rcases hc with ⟨_, rfl⟩ | rfl | ⟨_, rfl⟩ <;> decide +kernel

example : safeFilename exampleNames " a/b: drop -- it.".toList = "ab-drop-it.00000000000000100000000000000000".toList := by decide +kernel

example : safeFilename exampleNames "../../etc".toList = "etc.00000000000000000000001000000000".toList ∧ safeFilename exampleNames "etc".toList = "etc.00000000000000000000000000001000".toList := by
  decide +kernel

/-- Two functions on datasets that are their own paths. -/
def Spec.exampleSteps : List (Fn String) := [⟨some "add/b", false, fun d => ([], .ok (d ++ ["/in/b.spold"]))⟩, ⟨some "keep", false, fun d => ([], .ok d)⟩]

def Spec.exampleStepStates : ℕ → List String
  | 0 => ["/in/a.spold"]
  | _ + 1 => ["/in/a.spold", "/in/b.spold"]

theorem exampleSteps_succeed : Succeeds exampleSteps exampleStepStates := by
  intro i f hf
  match i with
  | 0 => cases hf; exact ⟨rfl, rfl⟩
  | 1 => cases hf; exact ⟨rfl, rfl⟩
  | n + 2 => simp [exampleSteps] at hf

/-- The hypotheses of `C100_files_of_run` and what the run leaves: the intermediate result of the first function, the followed file after both. -/
example : PlainFollow ⟨fun i => i == 0, some "b.spold".toList, String.toList⟩ ∧
    ((runInDirectory exampleNames ⟨fun i => i == 0, some "b.spold".toList, String.toList⟩ exampleSteps (exampleStepStates 0)).1.files.map fun p => String.ofList ("/".toList.intercalate p.1)) =
      ["report.log.json", "detailed.log.json", "0.addb.00000000000000000000000000100000.pickle", "follow/0.b.spold.pickle", "follow/1.b.spold.pickle", "final-results.pickle"] := by
  refine ⟨?_, by decide +kernel⟩
  intro w hw
  cases hw
  decide +kernel

/-- The hypotheses of `C101_follow_path`: following the path instead of the name stops the run after the first function. -/
example : (runInDirectory exampleNames ⟨fun i => i == 0, some "in/b.spold".toList, String.toList⟩ exampleSteps (exampleStepStates 0)).2 = .error (.raised .osError) :=
  C101_follow_path exampleNames_python _ (w := "in/b.spold".toList) rfl (by decide +kernel) (by decide +kernel) [] [exampleSteps[1]] (f := exampleSteps[0]) (name := "add/b") exampleStepStates
    (by intro i f hf; simp at hf) (by simp) rfl (d := ["/in/a.spold", "/in/b.spold"]) rfl (by unfold followedOf; decide +kernel)

/-- **C101** is false for file names: following `a.spold` also saves the datasets of `data.spold`. -/
theorem C101_other_file :
    (runInDirectory exampleNames ⟨fun _ => false, some "a.spold".toList, String.toList⟩ [exampleSteps[1]] ["/in/a.spold", "/in/data.spold", "/in/b.spold"]).1.files.lookup ["follow".toList, "0.a.spold.pickle".toList] =
      some (.followed 0 "keep".toList "a.spold".toList ["/in/a.spold", "/in/data.spold"]) := by decide +kernel

/-- Paths as they are, the hash of a path is the path. -/
def Spec.examplePaths : PathEnv := ⟨id, id, "/cache"⟩

/-- The hypotheses of `C102_fresh_partial`: two directories, used in turn. -/
example :
    let events : List (String × StoreEvent) := [("/a", .extract true [] 2), ("/b", .extract true [] 3), ("/a", .file 4 (.modify 0 "new")), ("/b", .extract true [] 5)]
    let w : World String := ⟨fun p => ⟨[⟨"x.spold", p, 1⟩], 1⟩, fun _ => none⟩
    DistinctPaths examplePaths "/a" events ∧ History exampleExtract 1 (eventsIn examplePaths "/a" events) ∧
      extractFrom examplePaths exampleExtract (events.foldl (worldStep examplePaths exampleExtract) w) "/a" true = .ok ["new"] ∧
      extractFrom examplePaths exampleExtract (events.foldl (worldStep examplePaths exampleExtract) w) "/b" true = .ok ["/b"] := by
  refine ⟨⟨fun _ => rfl, by decide +kernel⟩, ?_, by decide +kernel, by decide +kernel⟩
  rw [show eventsIn examplePaths "/a" _ = [.extract true [] 2, .file 4 (.modify 0 "new")] by decide +kernel]
  simp only [History, eventTime, GoodEvent, and_true, true_and]
  norm_num

end Ocelot
