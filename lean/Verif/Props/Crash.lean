import Verif.Model.Crash
import Verif.Props.Storage

/-! # Properties C114–C116: interrupted and simultaneous extractions, interrupted clean-ups -/

namespace Ocelot

namespace Spec

variable {α : Type}

/-- What is assumed of `pickle`: a pickle can be read again, and one whose end is missing cannot be read (its last byte is the `STOP` instruction). -/
structure Faithful (P : PickleEnv α) : Prop where
  whole : ∀ data, P.load (P.dump data) = .ok data
  cut : ∀ data k, k < (P.dump data).length → ∃ e, P.load ((P.dump data).take k) = .error e

/-- The time of an event. -/
def crashTime : CrashEvent → ℚ
  | .file now _ => now
  | .extract _ finish => finish
  | .interrupted _ now _ => now

/-- A history after time `t` with an advancing clock, in which extractions can be interrupted at any moment. -/
def CrashHistory (E : ExtractEnv α) : ℚ → List CrashEvent → Prop
  | _, [] => True
  | t, ev :: l => t < crashTime ev ∧ (match ev with
      | .file now op => GoodEvent E (.file now op)
      | _ => True) ∧ CrashHistory E (crashTime ev) l

/-- The directory and its cache file after a history that began without a cache. -/
def afterCrashes (E : ExtractEnv α) (P : PickleEnv α) (dir : SrcDir) (events : List CrashEvent) : RawStore := events.foldl (crashStep E P) ⟨dir, none⟩

/-- The event is an extraction, completed or not. -/
def IsExtraction : CrashEvent → Prop
  | .file _ _ => False
  | _ => True

end Spec

open Spec

variable {α : Type} {E : ExtractEnv α} {P : PickleEnv α}

theorem rawFresh_eq (d : SrcDir) (r : RawCache) (c : CacheFile α) (h : r.mtime = c.mtime) : rawFresh d (some r) = checkCache d (some c) := by
  simp only [rawFresh, Option.map_some, checkCache, h]

/-- The file holds the beginning of what a completed call would have written. -/
def Begins (P : PickleEnv α) (r : RawStore) (s : Store α) : Prop :=
  r.dir = s.dir ∧ match r.cache, s.cache with
    | none, none => True
    | some a, some c => a.mtime = c.mtime ∧ ∃ k, a.bytes = (P.dump c.data).take k
    | _, _ => False

theorem begins_fresh {r : RawStore} {s : Store α} (h : Begins P r s) : rawFresh r.dir r.cache = checkCache s.dir s.cache := by
  obtain ⟨hd, hc⟩ := h
  rw [hd]
  rcases hr : r.cache with _ | a <;> rcases hs : s.cache with _ | c <;> rw [hr, hs] at hc
  · rfl
  · exact hc.elim
  · exact hc.elim
  · exact rawFresh_eq _ _ _ hc.1

/-- Events of a completed history with the same effect on the times. -/
def completed : CrashEvent → List StoreEvent
  | .file now op => [.file now op]
  | .extract useCache finish => [.extract useCache [] finish]
  | .interrupted useCache now (some _) => [.extract useCache [] now]
  | .interrupted _ _ none => []

theorem completed_history : ∀ (events : List CrashEvent) (t : ℚ), CrashHistory E t events → ∀ t' ≤ t, History E t' (events.flatMap completed)
  | [], _, _, _, _ => trivial
  | ev :: l, t, ⟨h1, h2, h3⟩, t', ht => by
    rw [List.flatMap_cons]
    cases ev with
    | file now op => exact ⟨lt_of_le_of_lt ht h1, h2, completed_history l _ h3 _ le_rfl⟩
    | extract u f => exact ⟨lt_of_le_of_lt ht h1, rfl, completed_history l _ h3 _ le_rfl⟩
    | interrupted u now w =>
      cases w with
      | none => exact completed_history l _ h3 _ (le_trans ht h1.le)
      | some k => exact ⟨lt_of_le_of_lt ht h1, rfl, completed_history l _ h3 _ le_rfl⟩

theorem phase_cases {r : RawStore} {s : Store α} (h : Begins P r s) (u : Bool) :
    (∃ data, extractPhase E P r u = (.ok data, true) ∧ ∀ f, (extractDirectory E s u [] f).1 = ⟨s.dir, some ⟨data, f⟩⟩) ∨
    (((extractPhase E P r u).2 = false ∨ ∃ e, (extractPhase E P r u).1 = .error e) ∧ ∀ f, (extractDirectory E s u [] f).1 = s) := by
  have hf := begins_fresh h
  obtain ⟨rd, rc⟩ := r
  obtain ⟨sd, sc⟩ := s
  obtain ⟨hd, hc⟩ := h
  dsimp only at hd hc hf
  subst hd
  cases u
  · exact Or.inr ⟨Or.inl rfl, fun f => rfl⟩
  unfold extractPhase extractDirectory
  simp only [Bool.not_true, Bool.false_eq_true, if_false, hf, List.foldl_nil]
  rcases checkCache rd sc with e | b
  · exact Or.inr ⟨Or.inl rfl, fun f => rfl⟩
  rcases rc with _ | a <;> rcases sc with _ | c
  · cases b <;> simp only <;> rcases extractAll E rd with e | data
    · exact Or.inr ⟨Or.inr ⟨e, rfl⟩, fun f => rfl⟩
    · exact Or.inl ⟨data, rfl, fun f => rfl⟩
    · exact Or.inr ⟨Or.inr ⟨e, rfl⟩, fun f => rfl⟩
    · exact Or.inl ⟨data, rfl, fun f => rfl⟩
  · exact hc.elim
  · exact hc.elim
  · cases b
    · simp only
      rcases extractAll E rd with e | data
      · exact Or.inr ⟨Or.inr ⟨e, rfl⟩, fun f => rfl⟩
      · exact Or.inl ⟨data, rfl, fun f => rfl⟩
    · exact Or.inr ⟨Or.inl rfl, fun f => rfl⟩

theorem whole_keeps {r : RawStore} {u : Bool} (h : (extractPhase E P r u).2 = false ∨ ∃ e, (extractPhase E P r u).1 = .error e) (f : ℚ) :
    extractWhole E P r u f = (r, (extractPhase E P r u).1) := by
  unfold extractWhole
  generalize extractPhase E P r u = q at h ⊢
  rcases q with ⟨_ | d, _ | _⟩
  · rfl
  · rfl
  · rfl
  · rcases h with h | ⟨e, h⟩ <;> cases h

theorem interrupted_keeps {r : RawStore} {u : Bool} (h : (extractPhase E P r u).2 = false ∨ ∃ e, (extractPhase E P r u).1 = .error e) (now : ℚ) (w : Option ℕ) :
    extractInterrupted E P r u now w = r := by
  unfold extractInterrupted
  generalize extractPhase E P r u = q at h ⊢
  rcases q with ⟨_ | d, _ | _⟩
  · rfl
  · rfl
  · rfl
  · rcases h with h | ⟨e, h⟩ <;> cases h

theorem begins_step {r : RawStore} {s : Store α} (h : Begins P r s) (ev : CrashEvent) :
    Begins P (crashStep E P r ev) ((completed ev).foldl (storeStep E) s) := by
  obtain ⟨hd, hc⟩ := id h
  cases ev with
  | file now op => exact ⟨by simp [crashStep, completed, storeStep, hd], hc⟩
  | extract u f =>
    simp only [completed, List.foldl_cons, List.foldl_nil, storeStep, crashStep]
    rcases phase_cases (E := E) h u with ⟨data, h1, h2⟩ | ⟨h1, h2⟩
    · rw [h2]
      unfold extractWhole
      rw [h1]
      exact ⟨hd, rfl, (P.dump data).length, by simp⟩
    · rw [h2, whole_keeps h1]
      exact h
  | interrupted u now w =>
    simp only [crashStep]
    cases w with
    | none =>
      have : extractInterrupted E P r u now none = r := by
        unfold extractInterrupted
        split
        · next heq => cases heq
        · rfl
      rw [this]
      exact h
    | some k =>
      simp only [completed, List.foldl_cons, List.foldl_nil, storeStep]
      rcases phase_cases (E := E) h u with ⟨data, h1, h2⟩ | ⟨h1, h2⟩
      · rw [h2]
        unfold extractInterrupted
        rw [h1]
        exact ⟨hd, rfl, k, rfl⟩
      · rw [h2, interrupted_keeps h1]
        exact h

theorem begins_history (events : List CrashEvent) {r : RawStore} {s : Store α} (h : Begins P r s) :
    Begins P (events.foldl (crashStep E P) r) ((events.flatMap completed).foldl (storeStep E) s) := by
  induction events generalizing r s with
  | nil => exact h
  | cons ev l ih =>
    rw [List.foldl_cons, List.flatMap_cons, List.foldl_append]
    exact ih (begins_step h ev)

/-- What is known after a history: the cache file, if it counts as fresh, holds the beginning of the pickle of the current data. -/
theorem crash_facts (dir : SrcDir) (hdir : NoHiddenSpold E dir) (t : ℚ) (events : List CrashEvent) (h : CrashHistory E t events) :
    ∃ t', ∀ r, (afterCrashes E P dir events).cache = some r → r.mtime ≤ t' ∧ (OlderThan (afterCrashes E P dir events).dir r.mtime →
      ∃ data k, extractAll E (afterCrashes E P dir events).dir = .ok data ∧ r.bytes = (P.dump data).take k) := by
  obtain ⟨t', -, hI⟩ := history_inv (E := E) (events.flatMap completed) ⟨dir, none⟩ t hdir (by intro c hc; cases hc) (completed_history events t h t le_rfl)
  have hb : Begins P (afterCrashes E P dir events) ((events.flatMap completed).foldl (storeStep E) ⟨dir, none⟩) :=
    begins_history events ⟨rfl, trivial⟩
  refine ⟨t', fun r hr => ?_⟩
  generalize (events.flatMap completed).foldl (storeStep E) ⟨dir, none⟩ = s at hI hb
  obtain ⟨hd, hc⟩ := hb
  rw [hr] at hc
  rcases hs : s.cache with _ | c <;> rw [hs] at hc
  · exact hc.elim
  obtain ⟨hm, k, hk⟩ := hc
  obtain ⟨h1, h2⟩ := hI c hs
  rw [hm]
  refine ⟨h1, fun ho => ?_⟩
  rw [hd] at ho ⊢
  exact ⟨c.data, k, h2 ho, hk⟩

/-- The file is a pickle whose end is missing, and it is newer than everything in the directory. -/
def Spec.CutShort (E : ExtractEnv α) (P : PickleEnv α) (s : RawStore) : Prop :=
  ∃ data k r, extractAll E s.dir = .ok data ∧ k < (P.dump data).length ∧ s.cache = some r ∧ r.bytes = (P.dump data).take k ∧
    s.dir.mtime < r.mtime ∧ ∀ f ∈ s.dir.files, f.name.toList.head? ≠ some '.' → f.mtime < r.mtime

theorem fresh_iff {d : SrcDir} {r : RawCache} {b : Bool} (h : rawFresh d (some r) = .ok b) : b = true ↔ OlderThan d r.mtime := checkCache_eq h

theorem visible_iff (f : SrcFile) : isVisible f = true ↔ f.name.toList.head? ≠ some '.' := by
  rw [Ne, ← hidden_iff, Bool.not_eq_false]

/-- A cached extraction gives what an uncached one gives, or fails because the cache file is cut short. -/
theorem outcome (hP : Faithful P) (dir : SrcDir) (hdir : NoHiddenSpold E dir) (t : ℚ) (events : List CrashEvent) (h : CrashHistory E t events) (finish : ℚ) :
    (extractWhole E P (afterCrashes E P dir events) true finish).2 = extractAll E (afterCrashes E P dir events).dir ∨
    ((∃ e, (extractWhole E P (afterCrashes E P dir events) true finish).2 = .error e) ∧ CutShort E P (afterCrashes E P dir events)) ∨
    ((extractWhole E P (afterCrashes E P dir events) true finish).2 = .error .valueError ∧ ∀ f ∈ (afterCrashes E P dir events).dir.files, f.name.toList.head? = some '.') := by
  obtain ⟨t', hI⟩ := crash_facts (P := P) dir hdir t events h
  generalize afterCrashes E P dir events = s at hI
  have hres : (extractWhole E P s true finish).2 = (extractPhase E P s true).1 := by
    unfold extractWhole
    rcases extractPhase E P s true with ⟨_ | d, _ | _⟩ <;> rfl
  rw [hres]
  unfold extractPhase
  simp only [Bool.not_true, Bool.false_eq_true, if_false]
  rcases hc : s.cache with _ | r
  · left
    simp [rawFresh, checkCache]
  rw [hc] at hI
  obtain ⟨-, hI⟩ := hI r rfl
  rcases hf : rawFresh s.dir (some r) with e | b
  · obtain ⟨rfl, hvis, -⟩ := checkCache_error (α := Unit) hf
    right; right
    exact ⟨rfl, fun f hm => (hidden_iff f).mp (hvis f hm)⟩
  cases b
  · left; rfl
  · have ho := (fresh_iff hf).mp rfl
    obtain ⟨data, k, h1, h2⟩ := hI ho
    simp only
    by_cases hk : k < (P.dump data).length
    · right; left
      refine ⟨?_, data, k, r, h1, hk, hc, h2, ho.1, fun f hm hv => ho.2 f hm ((visible_iff f).mpr hv)⟩
      rw [h2]
      exact hP.cut data k hk
    · left
      rw [h2, List.take_of_length_le (by omega), hP.whole, h1]

/-- **C114**, the part that holds: after any history of changes and extractions, any of which can be interrupted at any moment (with an advancing clock, no changes during an extraction
and no hidden files to extract, as in C63), a cached extraction never returns anything but the current data. -/
theorem C114_safe_partial (hP : Faithful P) (dir : SrcDir) (hdir : NoHiddenSpold E dir) (t : ℚ) (events : List CrashEvent) (h : CrashHistory E t events) (finish : ℚ)
    (data : List α) (hr : (extractWhole E P (afterCrashes E P dir events) true finish).2 = .ok data) :
    extractAll E (afterCrashes E P dir events).dir = .ok data := by
  rcases outcome hP dir hdir t events h finish with h1 | ⟨⟨e, h1⟩, -⟩ | ⟨h1, -⟩ <;> rw [hr] at h1
  · exact h1.symm
  · cases h1
  · cases h1

/-- **C114**: the only new way to fail is a cache file that is cut short; without one (and with a file to look at) the current data are returned. -/
theorem C114_only_cut (hP : Faithful P) (dir : SrcDir) (hdir : NoHiddenSpold E dir) (t : ℚ) (events : List CrashEvent) (h : CrashHistory E t events) (finish : ℚ)
    (hvis : ∃ f ∈ (afterCrashes E P dir events).dir.files, f.name.toList.head? ≠ some '.') (hcut : ¬ CutShort E P (afterCrashes E P dir events)) :
    (extractWhole E P (afterCrashes E P dir events) true finish).2 = extractAll E (afterCrashes E P dir events).dir := by
  rcases outcome hP dir hdir t events h finish with h1 | ⟨-, h1⟩ | ⟨-, h1⟩
  · exact h1
  · exact absurd h1 hcut
  · obtain ⟨f, hf, hh⟩ := hvis
    exact absurd (h1 f hf) hh

theorem cut_phase (hP : Faithful P) {s : RawStore} (hvis : ∃ f ∈ s.dir.files, f.name.toList.head? ≠ some '.') (h : CutShort E P s) :
    ∃ e, extractPhase E P s true = (.error e, false) := by
  obtain ⟨data, k, r, h1, hk, hc, hb, hm, hold⟩ := h
  obtain ⟨e, he⟩ := hP.cut data k hk
  refine ⟨e, ?_⟩
  unfold extractPhase
  simp only [Bool.not_true, Bool.false_eq_true, if_false]
  rw [hc]
  rcases hf : rawFresh s.dir (some r) with x | b
  · obtain ⟨-, hv, -⟩ := checkCache_error (α := Unit) hf
    obtain ⟨f, hm, hh⟩ := hvis
    exact absurd ((hidden_iff f).mp (hv f hm)) hh
  · have : b = true := (fresh_iff hf).mpr ⟨hm, fun f hm hv => hold f hm ((visible_iff f).mp hv)⟩
    subst this
    simp only
    rw [hb, he]

theorem cut_stays (hP : Faithful P) {s : RawStore} (hvis : ∃ f ∈ s.dir.files, f.name.toList.head? ≠ some '.') (h : CutShort E P s) (later : List CrashEvent)
    (hl : ∀ ev ∈ later, IsExtraction ev) : later.foldl (crashStep E P) s = s := by
  have hk : ∀ u, (extractPhase E P s u).2 = false ∨ ∃ e, (extractPhase E P s u).1 = .error e := by
    intro u
    cases u
    · exact Or.inl rfl
    · obtain ⟨e, he⟩ := cut_phase hP hvis h
      exact Or.inl (by rw [he])
  induction later with
  | nil => rfl
  | cons ev l ih =>
    rw [List.foldl_cons]
    have : crashStep E P s ev = s := by
      have := hl ev (by simp)
      cases ev with
      | file => exact this.elim
      | extract u f => simp only [crashStep]; rw [whole_keeps (hk u)]
      | interrupted u n w => exact interrupted_keeps (hk u) n w
    rw [this]
    exact ih fun ev hev => hl ev (by simp [hev])

/-- **C114** is false: whenever writing the cache is interrupted before the last byte, at a time `now` after the last change, every later cached extraction fails, however often it is
repeated, until a file changes. -/
theorem C114_stuck (hP : Faithful P) (s : RawStore) (now : ℚ) (data : List α) (k : ℕ)
    (hwrites : extractPhase E P s true = (.ok data, true)) (hk : k < (P.dump data).length)
    (hvis : ∃ f ∈ s.dir.files, f.name.toList.head? ≠ some '.') (hdir : s.dir.mtime < now) (hold : ∀ f ∈ s.dir.files, f.mtime < now)
    (later : List CrashEvent) (hl : ∀ ev ∈ later, IsExtraction ev) (finish : ℚ) :
    ∃ e, (extractWhole E P (later.foldl (crashStep E P) (crashStep E P s (.interrupted true now (some k)))) true finish).2 = .error e := by
  have hx : extractAll E s.dir = .ok data := by
    unfold extractPhase at hwrites
    simp only [Bool.not_true, Bool.false_eq_true, if_false] at hwrites
    split at hwrites
    · cases hwrites
    · exact absurd (Prod.mk.inj hwrites).2 (by simp)
    · exact (Prod.mk.inj hwrites).1
  have hs : crashStep E P s (.interrupted true now (some k)) = { s with cache := some ⟨(P.dump data).take k, now⟩ } := by
    simp only [crashStep, extractInterrupted, hwrites]
  rw [hs]
  have hcut : CutShort E P { s with cache := some ⟨(P.dump data).take k, now⟩ } :=
    ⟨data, k, _, hx, hk, rfl, rfl, hdir, fun f hf _ => hold f hf⟩
  have hvis' : ∃ f ∈ ({ s with cache := some ⟨(P.dump data).take k, now⟩ } : RawStore).dir.files, f.name.toList.head? ≠ some '.' := hvis
  rw [cut_stays hP hvis' hcut later hl]
  obtain ⟨e, he⟩ := cut_phase hP hvis' hcut
  refine ⟨e, ?_⟩
  rw [whole_keeps (Or.inl (by rw [he])), he]

/-- **C114**: an uncached extraction gives the current data in every state. -/
theorem C114_uncached (s : RawStore) (finish : ℚ) : extractWhole E P s false finish = (s, extractAll E s.dir) :=
  whole_keeps (Or.inl rfl) finish

/-- **C114**: the damage is repaired by the next change: if, after any history, a file is created, renamed or deleted, or a visible file is written, then the next cached extraction
gives the current data again. -/
theorem C114_repaired (hP : Faithful P) (dir : SrcDir) (hdir : NoHiddenSpold E dir) (t : ℚ) (events : List CrashEvent) (now : ℚ) (op : FileOp)
    (h : CrashHistory E t (events ++ [.file now op]))
    (hop : ∀ pos content, op = .modify pos content → ∃ f, (afterCrashes E P dir events).dir.files[pos]? = some f ∧ f.name.toList.head? ≠ some '.')
    (hvis : ∃ f ∈ (afterCrashes E P dir (events ++ [.file now op])).dir.files, f.name.toList.head? ≠ some '.') (finish : ℚ) :
    (extractWhole E P (afterCrashes E P dir (events ++ [.file now op])) true finish).2 = extractAll E (afterCrashes E P dir (events ++ [.file now op])).dir := by
  refine C114_only_cut hP dir hdir t _ h finish hvis ?_
  have hbefore : ∀ (l : List CrashEvent) (t : ℚ) (s : RawStore), (∀ r, s.cache = some r → r.mtime ≤ t) → CrashHistory E t (l ++ [.file now op]) →
      ∀ r, (l.foldl (crashStep E P) s).cache = some r → r.mtime < now := by
    intro l
    induction l with
    | nil => intro t s hs hh r hr; exact lt_of_le_of_lt (hs r hr) hh.1
    | cons ev l ih =>
      intro t s hs hh r hr
      refine ih (crashTime ev) (crashStep E P s ev) ?_ hh.2.2 r hr
      intro r hr
      have hkeep : ∀ r, s.cache = some r → r.mtime ≤ crashTime ev := fun r hr => le_trans (hs r hr) hh.1.le
      cases ev with
      | file n o => exact hkeep r hr
      | extract u f =>
        simp only [crashStep, extractWhole] at hr
        split at hr
        · cases hr; exact le_rfl
        · exact hkeep r hr
      | interrupted u n w =>
        simp only [crashStep, extractInterrupted] at hr
        split at hr
        · cases hr; exact le_rfl
        · exact hkeep r hr
  have hlt := hbefore events t ⟨dir, none⟩ (by intro r hr; cases hr) h
  change ∀ r, (afterCrashes E P dir events).cache = some r → r.mtime < now at hlt
  have hstep : afterCrashes E P dir (events ++ [.file now op]) = { afterCrashes E P dir events with dir := (afterCrashes E P dir events).dir.apply now op } := by
    unfold afterCrashes
    rw [List.foldl_append]
    rfl
  rw [hstep]
  generalize afterCrashes E P dir events = s at hlt hop
  rintro ⟨data, k, r, -, -, hc, -, hm, hold⟩
  have := hlt r hc
  cases op with
  | create pos name content => exact absurd (lt_trans hm this) (lt_irrefl _)
  | rename pos name => exact absurd (lt_trans hm this) (lt_irrefl _)
  | delete pos => exact absurd (lt_trans hm this) (lt_irrefl _)
  | modify pos content =>
    obtain ⟨f, hf, hh⟩ := hop pos content rfl
    obtain ⟨l₁, l₂, hl, hmod⟩ := modify_split hf fun f => { f with content := content, mtime := now }
    have hmem : ({ f with content := content, mtime := now } : SrcFile) ∈ (s.dir.apply now (.modify pos content)).files := by
      change (s.dir.apply now (.modify pos content)).files = _ at hmod
      rw [hmod]; simp
    exact absurd (lt_trans (hold _ hmem hh) this) (lt_irrefl _)

/-! ### An example -/

/-- A small pickle format for lists of truth values, with a final `STOP`. -/
def boolPickle : PickleEnv Bool where
  dump l := l.map (fun b => if b then 1 else 2) ++ [46]
  load bs := if bs.getLast? = some 46 then .ok (bs.dropLast.map (· == 1)) else .error .valueError

theorem boolPickle_faithful : Faithful boolPickle where
  whole data := by
    simp only [boolPickle, List.getLast?_append, List.getLast?_singleton, Option.some_or, if_true, List.dropLast_concat, List.map_map]
    congr 1
    conv_rhs => rw [← List.map_id data]
    refine List.map_congr_left fun b _ => ?_
    cases b <;> rfl
  cut data k hk := by
    refine ⟨.valueError, ?_⟩
    simp only [boolPickle, List.length_append, List.length_map, List.length_singleton] at hk ⊢
    rw [List.take_append_of_le_length (by rw [List.length_map]; omega)]
    rw [if_neg]
    intro h
    have := List.mem_of_mem_take (List.mem_of_getLast? h)
    obtain ⟨b, -, hb⟩ := List.mem_map.mp this
    cases b <;> exact absurd hb (by decide)

/-- Files with a truth value in them. -/
def boolExtract : ExtractEnv Bool where
  lower := id
  parse _ c := .ok [c == "yes"]

/-- A first extraction is interrupted after one byte; the file is corrected, and again an extraction is interrupted. -/
def interruptedHistory : List CrashEvent :=
  [.interrupted true 2 (some 1), .extract true 3, .file 4 (.modify 0 "no"), .interrupted true 5 none, .extract true 6]

example : CrashHistory boolExtract 1 interruptedHistory ∧ NoHiddenSpold boolExtract ⟨[⟨"a.spold", "yes", 1⟩], 1⟩ ∧
    (extractWhole boolExtract boolPickle (afterCrashes boolExtract boolPickle ⟨[⟨"a.spold", "yes", 1⟩], 1⟩ (interruptedHistory.take 2)) true 7).2 = .error .valueError ∧
    (extractWhole boolExtract boolPickle (afterCrashes boolExtract boolPickle ⟨[⟨"a.spold", "yes", 1⟩], 1⟩ interruptedHistory) true 7).2 = .ok [false] := by
  refine ⟨?_, ?_, by decide +kernel, by decide +kernel⟩
  · simp only [interruptedHistory, CrashHistory, crashTime, GoodEvent, and_true, true_and]; norm_num
  · intro f hf hh
    simp only [List.mem_singleton] at hf
    subst hf
    exact absurd hh (by decide)

/-- The hypotheses of `C114_stuck` for the first event of this history. -/
example : extractPhase boolExtract boolPickle ⟨⟨[⟨"a.spold", "yes", 1⟩], 1⟩, none⟩ true = (.ok [true], true) ∧ 1 < (boolPickle.dump [true]).length := by
  decide +kernel

/-! ## C115 -/

theorem writeAt_length_le (f : List UInt8) (p : ℕ) (chunk : List UInt8) (n : ℕ) (h1 : f.length ≤ n) (h2 : p + chunk.length ≤ n) : (writeAt f p chunk).length ≤ n := by
  simp only [writeAt, List.length_append, List.length_take, List.length_replicate, List.length_drop]
  omega

/-- Bytes after a write. -/
theorem writeAt_get (f : List UInt8) (p : ℕ) (chunk : List UInt8) (k : ℕ) (hk : k < f.length ∨ (p ≤ k ∧ k < p + chunk.length)) :
    (writeAt f p chunk)[k]? = if p ≤ k ∧ k < p + chunk.length then chunk[k - p]? else f[k]? := by
  unfold writeAt
  have hl : ((f ++ List.replicate (p - f.length) 0).take p).length = p := by
    simp only [List.length_take, List.length_append, List.length_replicate]; omega
  by_cases h1 : k < p
  · rw [if_neg (by omega), List.append_assoc, List.getElem?_append_left (by omega), List.getElem?_take_of_lt h1, List.getElem?_append_left (by omega)]
  · by_cases h2 : k < p + chunk.length
    · rw [if_pos ⟨by omega, h2⟩, List.getElem?_append_left (by rw [List.length_append]; omega), List.getElem?_append_right (by omega), hl]
    · rw [if_neg (by omega), List.getElem?_append_right (by rw [List.length_append]; omega), List.length_append, hl, List.getElem?_drop]
      congr 1
      omega

/-- Invariant after the last opening, by `i`: what `i` has written is there. -/
def WriterInv (b : List UInt8) (i : ℕ) (s : Shared) : Prop :=
  (∀ k < s.pos i, s.file[k]? = b[k]?) ∧ s.pos i ≤ b.length ∧ s.file.length ≤ b.length ∧ ∀ j, s.pos j ≤ b.length

theorem writerInv_step {b : List UInt8} {i : ℕ} {s : Shared} (h : WriterInv b i s) {op : WriterOp} (hop : ∀ j, op ≠ .opens j) :
    WriterInv b i (writerStep (fun _ => b) s op) := by
  obtain ⟨h1, h2, h3, h4⟩ := h
  cases op with
  | opens j => exact absurd rfl (hop j)
  | ends j => exact ⟨h1, h2, h3, h4⟩
  | writes j n =>
    simp only [writerStep]
    split
    swap
    · exact ⟨h1, h2, h3, h4⟩
    have hlen : ((b.drop (s.pos j)).take n).length ≤ b.length - s.pos j := by
      simp only [List.length_take, List.length_drop]; omega
    have hj := h4 j
    have hchunk : ∀ k, s.pos j ≤ k → k < s.pos j + ((b.drop (s.pos j)).take n).length → ((b.drop (s.pos j)).take n)[k - s.pos j]? = b[k]? := by
      intro k hk1 hk2
      rw [List.getElem?_take_of_lt (by simp only [List.length_take] at hk2; omega), List.getElem?_drop]
      congr 1; omega
    have hlt : ∀ k < s.pos i, k < s.file.length := by
      intro k hk
      have := h1 k hk
      rw [List.getElem?_eq_getElem (show k < b.length by omega)] at this
      exact (List.getElem?_eq_some_iff.mp this).1
    refine ⟨?_, ?_, writeAt_length_le _ _ _ _ h3 (by omega), ?_⟩
    · intro k hk
      dsimp only at hk
      by_cases hin : s.pos j ≤ k ∧ k < s.pos j + ((b.drop (s.pos j)).take n).length
      · rw [writeAt_get _ _ _ _ (Or.inr hin), if_pos hin, hchunk k hin.1 hin.2]
      · have hki : k < s.pos i := by
          by_cases hij : i = j
          · subst hij
            rw [if_pos rfl] at hk
            omega
          · rwa [if_neg hij] at hk
        rw [writeAt_get _ _ _ _ (Or.inl (hlt k hki)), if_neg hin, h1 k hki]
    · dsimp only
      split
      · next hij => subst hij; omega
      · exact h2
    · intro l
      dsimp only
      split
      · omega
      · exact h4 l

theorem pos_le_step {b : List UInt8} {s : Shared} (h : ∀ j, s.pos j ≤ b.length) (op : WriterOp) : ∀ j, (writerStep (fun _ => b) s op).pos j ≤ b.length := by
  intro j
  cases op with
  | opens i => simp only [writerStep]; split <;> [exact Nat.zero_le _; exact h j]
  | ends i => exact h j
  | writes i n =>
    simp only [writerStep]
    split
    · dsimp only
      split
      · have := h i
        simp only [List.length_take, List.length_drop]; omega
      · exact h j
    · exact h j

/-- The state after a schedule of programs that all write `b`. -/
def Spec.afterSchedule (bytes : ℕ → List UInt8) (f : List UInt8) (ops : List WriterOp) : Shared :=
  ops.foldl (writerStep bytes) ⟨f, fun _ => 0, fun _ => false⟩

/-- **C115**, the part that holds: if several programs write the same data (they extract the same, unchanged directory), then under every schedule, and whatever programs end
prematurely, the cache file is right as soon as the program that opened it last has written its last byte. -/
theorem C115_same_data_partial (b f : List UInt8) (before after : List WriterOp) (i : ℕ) (hlast : ∀ j, WriterOp.opens j ∉ after)
    (hdone : (afterSchedule (fun _ => b) f (before ++ .opens i :: after)).pos i = b.length) :
    (afterSchedule (fun _ => b) f (before ++ .opens i :: after)).file = b := by
  unfold afterSchedule at hdone ⊢
  rw [List.foldl_append, List.foldl_cons] at hdone ⊢
  have hpos : ∀ (l : List WriterOp) (s : Shared), (∀ j, s.pos j ≤ b.length) → ∀ j, (l.foldl (writerStep fun _ => b) s).pos j ≤ b.length := by
    intro l
    induction l with
    | nil => intro s h; exact h
    | cons op l ih => intro s h; exact ih _ (pos_le_step h op)
  have h0 := hpos before ⟨f, fun _ => 0, fun _ => false⟩ (fun _ => Nat.zero_le _)
  generalize before.foldl (writerStep fun _ => b) ⟨f, fun _ => 0, fun _ => false⟩ = s at h0 hdone
  have hinv : ∀ (l : List WriterOp) (s : Shared), (∀ j, WriterOp.opens j ∉ l) → WriterInv b i s → WriterInv b i (l.foldl (writerStep fun _ => b) s) := by
    intro l
    induction l with
    | nil => intro s _ h; exact h
    | cons op l ih =>
      intro s hl h
      refine ih _ (fun j hj => hl j (by simp [hj])) (writerInv_step h ?_)
      rintro j rfl
      exact hl j (by simp)
  have hI : WriterInv b i (writerStep (fun _ => b) s (.opens i)) := by
    refine ⟨?_, ?_, ?_, pos_le_step h0 _⟩
    · intro k hk; simp [writerStep] at hk
    · simp [writerStep]
    · simp [writerStep]
  obtain ⟨h1, -, h3, -⟩ := hinv after _ hlast hI
  rw [hdone] at h1
  apply List.ext_getElem?
  intro k
  by_cases hk : k < b.length
  · exact h1 k hk
  · rw [List.getElem?_eq_none (by omega), List.getElem?_eq_none (by omega)]

/-- **C115**: in particular, under every schedule in which some program opens the file and all that do write all their bytes, the file is right in the end. -/
theorem C115_all_finish_partial (b f : List UInt8) (ops : List WriterOp) (hsome : ∃ i, WriterOp.opens i ∈ ops)
    (hdone : ∀ i, WriterOp.opens i ∈ ops → (afterSchedule (fun _ => b) f ops).pos i = b.length) :
    (afterSchedule (fun _ => b) f ops).file = b := by
  have hsplit : ∀ l : List WriterOp, (∃ i, WriterOp.opens i ∈ l) → ∃ before i after, l = before ++ .opens i :: after ∧ ∀ j, WriterOp.opens j ∉ after := by
    intro l
    induction l with
    | nil => rintro ⟨i, hi⟩; cases hi
    | cons op l ih =>
      intro h
      by_cases hl : ∃ i, WriterOp.opens i ∈ l
      · obtain ⟨bef, i, aft, h1, h2⟩ := ih hl
        exact ⟨op :: bef, i, aft, by rw [h1]; rfl, h2⟩
      · obtain ⟨i, hi⟩ := h
        rcases List.mem_cons.mp hi with hi | hi
        · exact ⟨[], i, l, by rw [hi]; rfl, fun j hj => hl ⟨j, hj⟩⟩
        · exact absurd ⟨i, hi⟩ hl
  obtain ⟨bef, i, aft, h1, h2⟩ := hsplit ops hsome
  rw [h1] at hdone ⊢
  exact C115_same_data_partial b f bef aft i h2 (hdone i (by simp))

/-- **C115** is false for programs that write different data, since the directory was changed between their extractions: the file can end up as a mixture, which here can even be read
(as data that no program has written). -/
theorem C115_mixture :
    ∃ (bytes : ℕ → List UInt8) (ops : List WriterOp), (∀ i, WriterOp.opens i ∈ ops → (afterSchedule bytes [] ops).pos i = (bytes i).length) ∧
      bytes 0 = boolPickle.dump [true, true] ∧ bytes 1 = boolPickle.dump [false, false] ∧
      boolPickle.load (afterSchedule bytes [] ops).file = .ok [false, true] := by
  refine ⟨fun i => if i = 0 then boolPickle.dump [true, true] else boolPickle.dump [false, false],
    [.opens 0, .opens 1, .writes 0 1, .writes 1 3, .ends 1, .writes 0 2, .ends 0], ?_, rfl, rfl, by decide +kernel⟩
  intro i hi
  simp at hi
  rcases hi with rfl | rfl <;> decide +kernel

/-- Two programs with the same data; the first is overtaken by the second and ends prematurely. -/
example : (afterSchedule (fun _ => boolPickle.dump [true, false, true]) [46] [.opens 0, .writes 0 3, .opens 1, .writes 1 2, .writes 0 7, .ends 0, .writes 1 9, .ends 1]).pos 1 = 4 ∧
    (afterSchedule (fun _ => boolPickle.dump [true, false, true]) [46] [.opens 0, .writes 0 3, .opens 1, .writes 1 2, .writes 0 7, .ends 0]).file = [1, 2, 0, 46] := by
  decide +kernel

/-! ## C116 -/

/-- What `cleanup_data_directory` sees of the entries. -/
def entriesOf (l : List OutTree) : List OutEntry := l.map (·.toOutEntry)

theorem deletedInOrder_spec {now : ℚ} {entries : List OutTree} {d : OutTree} (h : d ∈ deletedInOrder now entries) :
    d ∈ entries ∧ d.kind = .directory ∧ Old now d.toOutEntry := by
  have h1 : (d.kind != .link) = true := List.all_eq_true.mp (List.all_takeWhile (p := fun e : OutTree => e.kind != .link)) d h
  have h2 := List.mem_filter.mp (List.mem_mergeSort.mp ((List.takeWhile_prefix _).sublist.subset h))
  have h3 := h2.2
  simp only [toDelete, Bool.and_eq_true, bne_iff_ne, decide_eq_true_eq] at h3
  refine ⟨h2.1, ?_, h3.2⟩
  rcases hk : d.kind with _ | _ | _
  · exact absurd hk h3.1
  · rfl
  · rw [hk] at h1; exact absurd h1 (by decide)

/-- **C116**: however a clean-up is interrupted, everything that is not an old directory is still there as it was. -/
theorem C116_keeps (now : ℚ) (m j : ℕ) (entries : List OutTree) (hnames : (entries.map (·.name)).Nodup) (e : OutTree) (he : e ∈ entries)
    (hk : e.kind ≠ .directory ∨ ¬ Old now e.toOutEntry) : e ∈ cleanupInterrupted now m j entries := by
  have hne : ∀ d ∈ deletedInOrder now entries, e.name ≠ d.name := by
    intro d hd hn
    obtain ⟨h1, h2, h3⟩ := deletedInOrder_spec hd
    have : e = d := List.inj_on_of_nodup_map hnames he h1 hn
    subst this
    rcases hk with hk | hk
    · exact hk h2
    · exact hk h3
  have hleft : e ∈ entries.filter fun e => decide (∀ d ∈ (deletedInOrder now entries).take m, e.name ≠ d.name) :=
    List.mem_filter.mpr ⟨he, by simpa using fun d hd => hne d (List.mem_of_mem_take hd)⟩
  unfold cleanupInterrupted
  simp only
  split
  · exact hleft
  · next d hd =>
    refine List.mem_map.mpr ⟨e, hleft, ?_⟩
    rw [if_neg (hne d (List.mem_of_getElem? hd))]

theorem old_later {now now' : ℚ} (h : now ≤ now') {e : OutEntry} (ho : Old now e) : Old now' e := by
  unfold Old at *; linarith

theorem filter_taken {now now' : ℚ} (hle : now ≤ now') {entries : List OutTree} (hnames : (entries.map (·.name)).Nodup) (m : ℕ) :
    (entriesOf (entries.filter fun e => decide (∀ d ∈ (deletedInOrder now entries).take m, e.name ≠ d.name))).filter (fun e => decide ¬ (e.kind = .directory ∧ Old now' e)) =
      (entriesOf entries).filter fun e => decide ¬ (e.kind = .directory ∧ Old now' e) := by
  unfold entriesOf
  rw [List.filter_map, List.filter_map, List.filter_filter]
  congr 1
  apply List.filter_congr
  intro e he
  simp only [Function.comp]
  by_cases hd : e.kind = .directory ∧ Old now' e.toOutEntry
  · simp [hd]
  · have : ∀ d ∈ (deletedInOrder now entries).take m, e.name ≠ d.name := by
      intro d hdm hn
      obtain ⟨h1, h2, h3⟩ := deletedInOrder_spec (List.mem_of_mem_take hdm)
      have : e = d := List.inj_on_of_nodup_map hnames he h1 hn
      subst this
      exact hd ⟨h2, old_later hle h3⟩
    simp only [decide_eq_true this, Bool.and_true]

theorem names_taken {now : ℚ} {entries : List OutTree} (hnames : (entries.map (·.name)).Nodup) (m : ℕ) :
    ((entriesOf (entries.filter fun e => decide (∀ d ∈ (deletedInOrder now entries).take m, e.name ≠ d.name))).map (·.name)).Nodup := by
  unfold entriesOf
  rw [List.map_map]
  exact hnames.sublist (List.filter_sublist.map _)

/-- **C116**, the part that holds: if the clean-up is interrupted between two directories, or if the next one comes more than a week later, the next one gives the same as if there had
been no interrupted one (without links to directories among the old entries). -/
theorem C116_resumed_partial (now now' : ℚ) (m j : ℕ) (entries : List OutTree) (hnames : (entries.map (·.name)).Nodup) (hle : now ≤ now')
    (hlink : ∀ e ∈ entries, e.kind = .link → ¬ Old now' e.toOutEntry) (hj : j = 0 ∨ now < now' - 7 * 24 * 60 * 60) :
    cleanup now' (entriesOf (cleanupInterrupted now m j entries)) = cleanup now' (entriesOf entries) := by
  have hright : cleanup now' (entriesOf entries) = ⟨(entriesOf entries).filter fun e => ¬ (e.kind = .directory ∧ Old now' e), false⟩ := by
    apply C65_exact_partial
    · unfold entriesOf; rw [List.map_map]; exact hnames
    · intro e he hk
      obtain ⟨x, hx, rfl⟩ := List.mem_map.mp he
      exact hlink x hx hk
  rw [hright]
  set left := entries.filter fun e => decide (∀ d ∈ (deletedInOrder now entries).take m, e.name ≠ d.name) with hleft
  have hplain : cleanup now' (entriesOf left) = ⟨(entriesOf entries).filter fun e => ¬ (e.kind = .directory ∧ Old now' e), false⟩ := by
    rw [C65_exact_partial now' _ (names_taken hnames m), filter_taken hle hnames]
    intro e he hk
    obtain ⟨x, hx, rfl⟩ := List.mem_map.mp he
    exact hlink x (List.mem_filter.mp hx).1 hk
  unfold cleanupInterrupted
  simp only [← hleft]
  split
  · exact hplain
  next d hd =>
  have hdm := List.mem_of_getElem? hd
  obtain ⟨hde, hdk, hdo⟩ := deletedInOrder_spec hdm
  have hname : ∀ e : OutTree, (if e.name = d.name then partlyDeleted now j e else e).name = e.name := by
    intro e; unfold partlyDeleted; split <;> [(split <;> rfl); rfl]
  have hkind : ∀ e : OutTree, (if e.name = d.name then partlyDeleted now j e else e).kind = e.kind := by
    intro e; unfold partlyDeleted; split <;> [(split <;> rfl); rfl]
  rw [C65_exact_partial]
  · congr 1
    rw [← filter_taken hle hnames m, ← hleft]
    unfold entriesOf
    rw [List.map_map, List.filter_map, List.filter_map]
    have hsame : ∀ e ∈ left, (if e.name = d.name then partlyDeleted now j e else e) = e ∨
        (e.kind = .directory ∧ Old now' e.toOutEntry ∧ Old now' (if e.name = d.name then partlyDeleted now j e else e).toOutEntry) := by
      intro e he
      by_cases hn : e.name = d.name
      · have : e = d := List.inj_on_of_nodup_map hnames (List.mem_filter.mp he).1 hde hn
        subst this
        rw [if_pos rfl]
        rcases hj with rfl | hj
        · left; rfl
        · right
          refine ⟨hdk, old_later hle hdo, ?_⟩
          unfold partlyDeleted
          split
          · exact old_later hle hdo
          · exact hj
      · left; rw [if_neg hn]
    clear_value left
    clear hplain hleft
    induction left with
    | nil => rfl
    | cons e l ih =>
      have ih := ih fun x hx => hsame x (by simp [hx])
      rw [List.filter_cons, List.filter_cons]
      rcases hsame e (by simp) with h | ⟨h1, h2, h3⟩
      · simp only [Function.comp, h]
        split
        · rw [List.map_cons, List.map_cons]
          have h0 : ((fun x : OutTree => x.toOutEntry) ∘ fun e : OutTree => if e.name = d.name then partlyDeleted now j e else e) e = e.toOutEntry := by
            simp only [Function.comp, h]
          rw [h0]
          rw [ih]
        · exact ih
      · rw [if_neg, if_neg]
        · exact ih
        · simp [h1, h2]
        · simp only [Function.comp, hkind, h1, true_and, decide_not, Bool.not_eq_true']
          simp [h3]
  · unfold entriesOf
    rw [List.map_map, List.map_map]
    have : ((fun x => x.name) ∘ (fun x : OutTree => x.toOutEntry)) ∘ (fun e : OutTree => if e.name = d.name then partlyDeleted now j e else e) = fun e : OutTree => e.name := by
      funext e; exact hname e
    rw [this]
    exact hnames.sublist (List.filter_sublist.map _)
  · intro e he hk
    obtain ⟨x, hx, rfl⟩ := List.mem_map.mp he
    obtain ⟨y, hy, rfl⟩ := List.mem_map.mp hx
    have hkl : y.kind = .link := (hkind y).symm.trans hk
    have hne : y.name ≠ d.name := by
      intro hn
      have : y = d := List.inj_on_of_nodup_map hnames (List.mem_filter.mp hy).1 hde hn
      subst this
      rw [hdk] at hkl; cases hkl
    rw [if_neg hne]
    exact hlink y (List.mem_filter.mp hy).1 hkl

/-- **C116** is false if the clean-up is interrupted while it deletes a directory: what is left of it is new for the next clean-ups, which leave it for another week. -/
theorem C116_torso (now now' : ℚ) (m j : ℕ) (hj : 0 < j) (entries : List OutTree) (hnames : (entries.map (·.name)).Nodup) (d : OutTree)
    (hd : (deletedInOrder now entries)[m]? = some d) (hsoon : now' ≤ now + 7 * 24 * 60 * 60) :
    { d with created := now, content := d.content.drop j } ∈ cleanupInterrupted now m j entries ∧
    ({ d with created := now, content := d.content.drop j } : OutTree).toOutEntry ∈ (cleanup now' (entriesOf (cleanupInterrupted now m j entries))).left := by
  have hdm := List.mem_of_getElem? hd
  obtain ⟨hde, hdk, hdo⟩ := deletedInOrder_spec hdm
  have hsorted : ((deletedInOrder now entries).map (·.name)).Nodup := by
    have hp : (deletedInOrder now entries).Sublist ((entries.filter fun e => toDelete now e.toOutEntry).mergeSort fun a b => olderFirst a.toOutEntry b.toOutEntry) :=
      (List.takeWhile_prefix _).sublist
    refine List.Nodup.sublist (hp.map _) ?_
    exact ((List.mergeSort_perm _ _).map _).nodup_iff.mpr (hnames.sublist (List.filter_sublist.map _))
  have hleft : d ∈ entries.filter fun e => decide (∀ x ∈ (deletedInOrder now entries).take m, e.name ≠ x.name) := by
    refine List.mem_filter.mpr ⟨hde, ?_⟩
    simp only [decide_eq_true_eq]
    intro x hx hn
    obtain ⟨k, hk, hkx⟩ := List.mem_iff_getElem.mp hx
    rw [List.length_take] at hk
    rw [List.getElem_take] at hkx
    obtain ⟨hm, hmd⟩ := List.getElem?_eq_some_iff.mp hd
    have := (List.Nodup.getElem_inj_iff hsorted (i := k) (j := m) (hi := by rw [List.length_map]; omega) (hj := by rw [List.length_map]; omega)).mp (by simp [hkx, hmd, hn])
    omega
  have hmem : ({ d with created := now, content := d.content.drop j } : OutTree) ∈ cleanupInterrupted now m j entries := by
    unfold cleanupInterrupted
    rw [hd]
    refine List.mem_map.mpr ⟨d, hleft, ?_⟩
    rw [if_pos rfl]
    unfold partlyDeleted
    rw [if_neg (by omega)]
  refine ⟨hmem, ?_⟩
  have hn2 : ((entriesOf (cleanupInterrupted now m j entries)).map (·.name)).Nodup := by
    have hname : ∀ e : OutTree, (if e.name = d.name then partlyDeleted now j e else e).name = e.name := by
      intro e; unfold partlyDeleted; split <;> [(split <;> rfl); rfl]
    unfold cleanupInterrupted entriesOf
    rw [hd]
    simp only [List.map_map]
    rw [show ((fun x : OutEntry => x.name) ∘ (fun x : OutTree => x.toOutEntry) ∘ fun e : OutTree => if e.name = d.name then partlyDeleted now j e else e) = fun e : OutTree => e.name from funext hname]
    exact hnames.sublist (List.filter_sublist.map _)
  refine (C65_keeps now' _ hn2).2 _ (List.mem_map.mpr ⟨_, hmem, rfl⟩) (Or.inr ?_)
  unfold Old
  dsimp only
  linarith

/-- Two old runs; the clean-up is interrupted while it deletes the first. -/
example : (deletedInOrder 1000000 [⟨⟨"a", .directory, 100⟩, ["report.html"]⟩, ⟨⟨"c", .directory, 999999⟩, []⟩])[0]? = some ⟨⟨"a", .directory, 100⟩, ["report.html"]⟩ := by
  have h : toDelete 1000000 ⟨"a", .directory, 100⟩ = true ∧ toDelete 1000000 ⟨"c", .directory, 999999⟩ = false := by decide +kernel
  simp [deletedInOrder, h]

end Ocelot
