import Verif.Model.Storage
import Verif.Proofs.ListLemmas
import Mathlib.Tactic.Linarith
import Mathlib.Tactic.NormNum
import Mathlib.Tactic.Tauto

/-! # Properties C63, C65: the extraction cache and the clean-up of old runs -/

namespace Ocelot

namespace Spec

variable {α : Type}

/-- No hidden file would be extracted. -/
def NoHiddenSpold (E : ExtractEnv α) (d : SrcDir) : Prop := ∀ f ∈ d.files, f.name.toList.head? = some '.' → E.isSpold f.name = false

/-- A name that does not make a hidden file that would be extracted. -/
def GoodName (E : ExtractEnv α) (name : String) : Prop := name.toList.head? = some '.' → E.isSpold name = false

/-- The time at which an event ends. -/
def eventTime : StoreEvent → ℚ
  | .file now _ => now
  | .extract _ _ finish => finish

/-- Names given by the event are good, and no file changes during an extraction. -/
def GoodEvent (E : ExtractEnv α) : StoreEvent → Prop
  | .file _ (.create _ name _) => GoodName E name
  | .file _ (.rename _ name) => GoodName E name
  | .file _ _ => True
  | .extract _ during _ => during = []

/-- A history of good events after time `t`, with a clock that advances between them. -/
def History (E : ExtractEnv α) : ℚ → List StoreEvent → Prop
  | _, [] => True
  | t, ev :: l => t < eventTime ev ∧ GoodEvent E ev ∧ History E (eventTime ev) l

/-- The store after a history that began without a cache. -/
def after (E : ExtractEnv α) (dir : SrcDir) (events : List StoreEvent) : Store α := events.foldl (storeStep E) ⟨dir, none⟩

end Spec

open Spec

variable {α : Type}

/-- Everything in the directory that is looked at is older than `t`. -/
def OlderThan (d : SrcDir) (t : ℚ) : Prop := d.mtime < t ∧ ∀ f ∈ d.files, isVisible f = true → f.mtime < t

/-- What the cache promises at time `t`. -/
def CacheInv (E : ExtractEnv α) (s : Store α) (t : ℚ) : Prop :=
  ∀ c, s.cache = some c → c.mtime ≤ t ∧ (OlderThan s.dir c.mtime → extractAll E s.dir = .ok c.data)

theorem maxOf_lt (a : ℚ) (l : List ℚ) (t : ℚ) : maxOf a l < t ↔ a < t ∧ ∀ x ∈ l, x < t := by
  unfold maxOf
  induction l generalizing a with
  | nil => simp
  | cons b l ih =>
    rw [List.foldl_cons, ih, max_lt_iff]
    simp only [List.mem_cons, forall_eq_or_imp]
    tauto

theorem checkCache_eq {d : SrcDir} {c : CacheFile α} {b : Bool} (h : checkCache d (some c) = .ok b) : b = true ↔ OlderThan d c.mtime := by
  unfold checkCache at h
  simp only at h
  have hv : ∀ x, x ∈ d.visibleTimes ↔ ∃ f ∈ d.files, isVisible f = true ∧ f.mtime = x := by
    intro x
    unfold SrcDir.visibleTimes
    simp only [List.mem_map, List.mem_filter]
    constructor
    · rintro ⟨f, ⟨h1, h2⟩, h3⟩; exact ⟨f, h1, h2, h3⟩
    · rintro ⟨f, h1, h2, h3⟩; exact ⟨f, ⟨h1, h2⟩, h3⟩
  split at h
  · cases h
  · next t l hl =>
    cases h
    rw [decide_eq_true_eq, max_lt_iff, maxOf_lt]
    unfold OlderThan
    rw [hl] at hv
    constructor
    · rintro ⟨h1, h2, h3⟩
      refine ⟨h1, ?_⟩
      intro f hf hvis
      have := (hv f.mtime).mpr ⟨f, hf, hvis, rfl⟩
      rcases List.mem_cons.mp this with h | h
      · rw [h]; exact h2
      · exact h3 _ h
    · rintro ⟨h1, h2⟩
      refine ⟨h1, ?_, ?_⟩
      · obtain ⟨f, hf, hvis, he⟩ := (hv t).mp (by simp)
        rw [← he]; exact h2 f hf hvis
      · intro x hx
        obtain ⟨f, hf, hvis, he⟩ := (hv x).mp (by simp [hx])
        rw [← he]; exact h2 f hf hvis

theorem checkCache_error {d : SrcDir} {c : Option (CacheFile α)} {e : Err} (h : checkCache d c = .error e) : e = .valueError ∧ (∀ f ∈ d.files, isVisible f = false) ∧ c.isSome := by
  unfold checkCache at h
  split at h
  · cases h
  · split at h
    · next hv =>
      cases h
      refine ⟨rfl, ?_, rfl⟩
      unfold SrcDir.visibleTimes at hv
      rw [List.map_eq_nil_iff, List.filter_eq_nil_iff] at hv
      intro f hf
      simpa using hv f hf
    · cases h

theorem modify_split {β : Type} {l : List β} {pos : ℕ} {f : β} (hf : l[pos]? = some f) (g : β → β) : ∃ l₁ l₂, l = l₁ ++ f :: l₂ ∧ l.modify pos g = l₁ ++ g f :: l₂ := by
  obtain ⟨hlt, hget'⟩ := List.getElem?_eq_some_iff.mp hf
  have hl : l = l.take pos ++ f :: l.drop (pos + 1) := by
    rw [← hget', ← List.drop_eq_getElem_cons hlt, List.take_append_drop]
  have hlen : (l.take pos).length = pos := by simp; omega
  refine ⟨l.take pos, l.drop (pos + 1), hl, ?_⟩
  generalize l.take pos = l₁ at hl hlen
  generalize l.drop (pos + 1) = l₂ at hl
  clear hget' hlt hf
  subst hl hlen
  induction l₁ with
  | nil => rfl
  | cons a l₁ ih => rw [List.cons_append, List.length_cons, List.modify_succ_cons, ih]; rfl

theorem hidden_iff (f : SrcFile) : isVisible f = false ↔ f.name.toList.head? = some '.' := by
  unfold isVisible
  rw [bne_eq_false_iff_eq]

theorem apply_inv {E : ExtractEnv α} {s : Store α} {t now : ℚ} {op : FileOp} (hno : NoHiddenSpold E s.dir) (hgood : GoodEvent E (.file now op)) (hI : CacheInv E s t) (ht : t < now) :
    NoHiddenSpold E (s.dir.apply now op) ∧ CacheInv E { s with dir := s.dir.apply now op } now := by
  cases op with
  | create pos name content =>
    constructor
    · intro f hf hh
      simp only [SrcDir.apply, List.mem_append, List.mem_cons] at hf
      rcases hf with hf | rfl | hf
      · exact hno f (List.mem_of_mem_take hf) hh
      · exact hgood hh
      · exact hno f (List.mem_of_mem_drop hf) hh
    · intro c hc
      have := (hI c hc).1
      refine ⟨by linarith, fun hold => ?_⟩
      have := hold.1
      simp only [SrcDir.apply] at this
      linarith
  | rename pos name =>
    constructor
    · intro f hf hh
      simp only [SrcDir.apply] at hf
      obtain ⟨k, hk⟩ := List.mem_iff_getElem?.mp hf
      rw [List.getElem?_modify] at hk
      obtain ⟨g, hg, he⟩ := Option.map_eq_some_iff.mp hk
      by_cases hp : pos = k
      · rw [if_pos hp] at he
        subst he
        exact hgood hh
      · rw [if_neg hp] at he
        have he : g = f := he
        subst he
        exact hno g (List.mem_of_getElem? hg) hh
    · intro c hc
      have := (hI c hc).1
      refine ⟨by linarith, fun hold => ?_⟩
      have := hold.1
      simp only [SrcDir.apply] at this
      linarith
  | delete pos =>
    constructor
    · intro f hf hh
      exact hno f (List.mem_of_mem_eraseIdx hf) hh
    · intro c hc
      have := (hI c hc).1
      refine ⟨by linarith, fun hold => ?_⟩
      have := hold.1
      simp only [SrcDir.apply] at this
      linarith
  | modify pos content =>
    have hget : ∀ k, (s.dir.apply now (.modify pos content)).files[k]? = s.dir.files[k]?.map fun f => if pos = k then { f with content := content, mtime := now } else f := by
      intro k
      simp only [SrcDir.apply, List.getElem?_modify]
      rcases s.dir.files[k]? with _ | f
      · rfl
      · simp only [Option.map_eq_map, Option.map_some]
    constructor
    · intro f hf hh
      obtain ⟨k, hk⟩ := List.mem_iff_getElem?.mp hf
      rw [hget] at hk
      obtain ⟨g, hg, he⟩ := Option.map_eq_some_iff.mp hk
      have hname : f.name = g.name := by
        rw [← he]
        split <;> rfl
      rw [hname] at hh ⊢
      exact hno g (List.mem_of_getElem? hg) hh
    · intro c hc
      have hct := (hI c hc).1
      refine ⟨by linarith, fun hold => ?_⟩
      rcases hf : s.dir.files[pos]? with _ | f
      · -- nothing was modified
        have : s.dir.apply now (.modify pos content) = s.dir := by
          have hfiles : (s.dir.apply now (.modify pos content)).files = s.dir.files := by
            apply List.ext_getElem?
            intro k
            rw [hget]
            by_cases hp : pos = k
            · subst hp; rw [hf]; rfl
            · simp [hp]
          rw [show s.dir.apply now (.modify pos content) = { s.dir with files := (s.dir.apply now (.modify pos content)).files } from rfl, hfiles]
        simp only [this] at hold ⊢
        exact (hI c hc).2 hold
      · by_cases hv : isVisible f = true
        · exfalso
          have hmem : { f with content := content, mtime := now } ∈ (s.dir.apply now (.modify pos content)).files := by
            rw [List.mem_iff_getElem?]
            refine ⟨pos, ?_⟩
            rw [hget, hf]
            simp
          have := hold.2 _ hmem hv
          simp only at this
          linarith
        · have hv' : isVisible f = false := by simpa using hv
          have hns : E.isSpold f.name = false := hno f (List.mem_of_getElem? hf) ((hidden_iff f).mp hv')
          have holdb : OlderThan s.dir c.mtime := by
            refine ⟨hold.1, ?_⟩
            intro g hg hgv
            obtain ⟨k, hk⟩ := List.mem_iff_getElem?.mp hg
            have hne : pos ≠ k := by
              intro hp
              subst hp
              rw [hf] at hk
              cases hk
              rw [hv'] at hgv
              exact absurd hgv (by simp)
            apply hold.2 g _ hgv
            rw [List.mem_iff_getElem?]
            exact ⟨k, by rw [hget, hk]; simp [hne]⟩
          have hex : extractAll E (s.dir.apply now (.modify pos content)) = extractAll E s.dir := by
            unfold extractAll
            congr 1
            obtain ⟨l₁, l₂, hl, hmod⟩ := modify_split hf fun f => { f with content := content, mtime := now }
            change (s.dir.apply now (.modify pos content)).files = _ at hmod
            rw [hmod, hl]
            simp [List.filter_append, hns]
          show extractAll E (s.dir.apply now (.modify pos content)) = _
          rw [hex]
          exact (hI c hc).2 holdb

theorem extract_inv {E : ExtractEnv α} {s : Store α} {t finish : ℚ} {useCache : Bool} (hI : CacheInv E s t) (ht : t < finish) :
    (extractDirectory E s useCache [] finish).1.dir = s.dir ∧ CacheInv E (extractDirectory E s useCache [] finish).1 finish := by
  have hkeep : CacheInv E s finish := fun c hc => ⟨by have := (hI c hc).1; linarith, (hI c hc).2⟩
  unfold extractDirectory
  simp only [List.foldl_nil]
  cases useCache
  · exact ⟨rfl, hkeep⟩
  · simp only [Bool.not_true, Bool.false_eq_true, if_false]
    split
    · exact ⟨rfl, hkeep⟩
    · exact ⟨rfl, hkeep⟩
    · split
      · exact ⟨rfl, hkeep⟩
      · next data hd =>
        refine ⟨rfl, ?_⟩
        intro c hc
        cases hc
        exact ⟨le_refl _, fun _ => hd⟩

theorem history_inv {E : ExtractEnv α} : ∀ (events : List StoreEvent) (s : Store α) (t : ℚ), NoHiddenSpold E s.dir → CacheInv E s t → History E t events →
    ∃ t', NoHiddenSpold E (events.foldl (storeStep E) s).dir ∧ CacheInv E (events.foldl (storeStep E) s) t'
  | [], s, t, hno, hI, _ => ⟨t, hno, hI⟩
  | ev :: l, s, t, hno, hI, ⟨ht, hg, hl⟩ => by
    rw [List.foldl_cons]
    cases ev with
    | file now op =>
      obtain ⟨h1, h2⟩ := apply_inv hno hg hI ht
      exact history_inv l _ _ h1 h2 hl
    | extract useCache during finish =>
      have hd : during = [] := hg
      subst hd
      obtain ⟨h1, h2⟩ := extract_inv (useCache := useCache) hI ht
      exact history_inv l _ _ (by
        show NoHiddenSpold E (extractDirectory E s useCache [] finish).1.dir
        simp only [eventTime] at h1
        rw [h1]; exact hno) h2 hl

/-- **C63**, the part that holds: after any history of creations, changes, renamings, deletions and extractions, in which the clock advances, no file changes while it is being
extracted, and no hidden file would be extracted, a cached extraction of a directory with at least one visible file gives exactly what an uncached extraction gives. -/
theorem C63_fresh_partial (E : ExtractEnv α) (dir : SrcDir) (hdir : NoHiddenSpold E dir) (t : ℚ) (events : List StoreEvent) (h : History E t events) (during : List (ℚ × FileOp)) (finish : ℚ)
    (hvis : ∃ f ∈ (after E dir events).dir.files, f.name.toList.head? ≠ some '.') :
    (extractDirectory E (after E dir events) true during finish).2 = extractAll E (after E dir events).dir := by
  obtain ⟨t', _, hI⟩ := history_inv events ⟨dir, none⟩ t hdir (by intro c hc; cases hc) h
  change CacheInv E (after E dir events) t' at hI
  generalize after E dir events = s at hI hvis
  unfold extractDirectory
  simp only [Bool.not_true, Bool.false_eq_true, if_false]
  split
  · next he =>
    obtain ⟨f, hf, hh⟩ := hvis
    exact absurd ((hidden_iff f).mp ((checkCache_error he).2.1 f hf)) hh
  · next c hb hc =>
    rw [hc] at hb
    exact ((hI c hc).2 ((checkCache_eq hb).mp rfl)).symm
  · split
    · next e he => exact he.symm
    · next data hd => exact hd.symm

/-- **C63** is false for a directory that has become empty (or holds only hidden files): with a cache file from an earlier extraction, the cached extraction raises a `ValueError`. -/
theorem C63_emptied (E : ExtractEnv α) (s : Store α) (hempty : ∀ f ∈ s.dir.files, f.name.toList.head? = some '.') (hc : s.cache.isSome) (during : List (ℚ × FileOp)) (finish : ℚ) :
    (extractDirectory E s true during finish).2 = .error .valueError := by
  obtain ⟨c, hc⟩ := Option.isSome_iff_exists.mp hc
  have hv : s.dir.visibleTimes = [] := by
    unfold SrcDir.visibleTimes
    rw [List.map_eq_nil_iff, List.filter_eq_nil_iff]
    intro f hf
    rw [Bool.not_eq_true]
    exact (hidden_iff f).mpr (hempty f hf)
  unfold extractDirectory
  simp only [Bool.not_true, Bool.false_eq_true, if_false, hc, checkCache, hv]

/-- **C63** is false for hidden files: whenever the cache would be used, changing a hidden file changes nothing about that, although the file may be extracted. -/
theorem C63_hidden (E : ExtractEnv α) {s : Store α} {c : CacheFile α} (hc : s.cache = some c) (huse : checkCache s.dir (some c) = .ok true) {pos : ℕ} {f : SrcFile} (hf : s.dir.files[pos]? = some f)
    (hh : f.name.toList.head? = some '.') (now : ℚ) (content : String) (during : List (ℚ × FileOp)) (finish : ℚ) :
    (extractDirectory E (storeStep E s (.file now (.modify pos content))) true during finish).2 = .ok c.data := by
  have hv : (s.dir.apply now (.modify pos content)).visibleTimes = s.dir.visibleTimes := by
    unfold SrcDir.visibleTimes
    obtain ⟨l₁, l₂, hl, hmod⟩ := modify_split hf fun f => { f with content := content, mtime := now }
    change (s.dir.apply now (.modify pos content)).files = _ at hmod
    have h1 : isVisible f = false := (hidden_iff f).mpr hh
    have h2 : isVisible { f with content := content, mtime := now } = false := (hidden_iff _).mpr hh
    rw [hmod, hl]
    simp [List.filter_append, h1, h2]
  have huse' : checkCache (s.dir.apply now (.modify pos content)) (some c) = .ok true := by
    rw [← huse]
    unfold checkCache
    simp only [hv]
    rfl
  unfold extractDirectory storeStep
  simp only [Bool.not_true, Bool.false_eq_true, if_false, hc, huse']

/-- Every file holds one dataset, its content. -/
def Spec.exampleExtract : ExtractEnv String := ⟨id, fun _ content => .ok [content]⟩

/-- **C63** is false if a file changes while the directory is being extracted: the cache is written later than the change, and keeps the old content. -/
theorem C63_during :
    let dir : SrcDir := ⟨[⟨"a.spold", "old", 1⟩], 1⟩
    let s := storeStep exampleExtract ⟨dir, none⟩ (.extract true [(3, .modify 0 "new")] 4)
    (extractDirectory exampleExtract s true [] 5).2 = .ok ["old"] ∧ extractAll exampleExtract s.dir = .ok ["new"] := by decide +kernel

/-- The hypotheses of `C63_hidden`, with a result that differs from the uncached one. -/
example :
    let s : Store String := ⟨⟨[⟨"a.spold", "x", 1⟩, ⟨".b.spold", "old", 1⟩], 1⟩, some ⟨["x", "old"], 2⟩⟩
    checkCache s.dir s.cache = .ok true ∧ extractAll exampleExtract s.dir = .ok ["x", "old"] ∧
      (extractDirectory exampleExtract (storeStep exampleExtract s (.file 3 (.modify 1 "new"))) true [] 4).2 = .ok ["x", "old"] ∧
      extractAll exampleExtract (storeStep exampleExtract s (.file 3 (.modify 1 "new"))).dir = .ok ["x", "new"] := by decide +kernel

/-- A history in which the cache is written, invalidated by a change, written again, and used. -/
def Spec.exampleHistory : List StoreEvent := [.extract true [] 2, .file 3 (.modify 0 "new"), .extract true [] 4, .file 5 (.create 1 "b.txt" "note"), .file 6 (.delete 1), .extract true [] 7]

example : History exampleExtract 1 exampleHistory ∧ (after exampleExtract ⟨[⟨"a.spold", "old", 1⟩], 1⟩ exampleHistory).cache.map (·.mtime) = some 7 ∧
    (extractDirectory exampleExtract (after exampleExtract ⟨[⟨"a.spold", "old", 1⟩], 1⟩ exampleHistory) true [] 8).2 = .ok ["new"] := by
  refine ⟨?_, by decide +kernel, by decide +kernel⟩
  simp only [exampleHistory, History, eventTime, GoodEvent, GoodName, and_true, true_and]
  refine ⟨by norm_num, by norm_num, by norm_num, by norm_num, ?_, by norm_num, by norm_num⟩
  intro h
  exact absurd h (by decide)

/-! ## C65 -/

theorem deleteEach_no_link : ∀ (ds l : List OutEntry), (∀ d ∈ ds, d.kind ≠ .link) → deleteEach ds l = ⟨l.filter fun e => decide (∀ d ∈ ds, e.name ≠ d.name), false⟩
  | [], l, _ => by simp [deleteEach]
  | d :: ds, l, h => by
    rw [deleteEach, if_neg (h d (by simp)), deleteEach_no_link ds _ fun x hx => h x (by simp [hx]), List.filter_filter]
    congr 1
    apply List.filter_congr
    intro e _
    rw [Bool.eq_iff_iff]
    simp only [Bool.and_eq_true, decide_eq_true_eq, List.mem_cons, forall_eq_or_imp]
    tauto

/-- More than a week old. -/
def Spec.Old (now : ℚ) (e : OutEntry) : Prop := e.created < now - 7 * 24 * 60 * 60

instance (now : ℚ) (e : OutEntry) : Decidable (Old now e) := by unfold Old; infer_instance

/-- **C65**: without links to directories among the old entries, exactly the directories more than a week old are deleted, and the rest is left in place. -/
theorem C65_exact_partial (now : ℚ) (entries : List OutEntry) (hnames : (entries.map (·.name)).Nodup) (hlink : ∀ e ∈ entries, e.kind = .link → ¬ Old now e) :
    cleanup now entries = ⟨entries.filter fun e => ¬ (e.kind = .directory ∧ Old now e), false⟩ := by
  unfold cleanup
  have hmem : ∀ d, d ∈ (entries.filter (toDelete now)).mergeSort olderFirst ↔ d ∈ entries ∧ d.kind ≠ .file ∧ Old now d := by
    intro d
    rw [List.mem_mergeSort, List.mem_filter]
    have hold : d.created < now - oneWeek ↔ Old now d := Iff.rfl
    simp [toDelete, hold]
  rw [deleteEach_no_link]
  · congr 1
    apply List.filter_congr
    intro e he
    rw [Bool.eq_iff_iff]
    simp only [decide_eq_true_eq]
    constructor
    · rintro h ⟨hk, ho⟩
      exact h e ((hmem e).mpr ⟨he, by rw [hk]; decide, ho⟩) rfl
    · intro h d hd hn
      obtain ⟨hde, hdk, hdo⟩ := (hmem d).mp hd
      have : e = d := List.inj_on_of_nodup_map hnames he hde hn
      subst this
      refine h ⟨?_, hdo⟩
      rcases hk : e.kind with _ | _ | _
      · exact absurd hk hdk
      · rfl
      · exact absurd hdo (hlink e he hk)
  · intro d hd hk
    obtain ⟨hde, _, hdo⟩ := (hmem d).mp hd
    exact hlink d hde hk hdo

theorem deleteEach_keeps : ∀ (ds l : List OutEntry) (e : OutEntry), e ∈ l → (∀ d ∈ ds, d.kind = .directory → d.name ≠ e.name) → e ∈ (deleteEach ds l).left ∨ ∃ d ∈ ds, d.kind = .file
  | [], l, e, he, _ => .inl he
  | d :: ds, l, e, he, h => by
    rw [deleteEach]
    by_cases hk : d.kind = .link
    · rw [if_pos hk]; exact .inl he
    · rw [if_neg hk]
      rcases hkd : d.kind with _ | _ | _
      · exact .inr ⟨d, by simp, hkd⟩
      · rcases deleteEach_keeps ds (l.filter fun x => x.name ≠ d.name) e (List.mem_filter.mpr ⟨he, by simpa using (h d (by simp) hkd).symm⟩) (fun x hx => h x (by simp [hx])) with h1 | ⟨x, hx, hf⟩
        · exact .inl h1
        · exact .inr ⟨x, by simp [hx], hf⟩
      · exact absurd hkd hk

theorem deleteEach_sub : ∀ (ds l : List OutEntry), ∀ e ∈ (deleteEach ds l).left, e ∈ l
  | [], l, e, he => he
  | d :: ds, l, e, he => by
    rw [deleteEach] at he
    split at he
    · exact he
    · exact (List.mem_filter.mp (deleteEach_sub ds _ e he)).1

/-- **C65**, always: nothing is added, and no file, no link and no directory that is not older than a week is ever deleted, also if the clean-up fails halfway. -/
theorem C65_keeps (now : ℚ) (entries : List OutEntry) (hnames : (entries.map (·.name)).Nodup) :
    (∀ e ∈ (cleanup now entries).left, e ∈ entries) ∧ ∀ e ∈ entries, (e.kind ≠ .directory ∨ ¬ Old now e) → e ∈ (cleanup now entries).left := by
  refine ⟨fun e he => deleteEach_sub _ _ e he, ?_⟩
  intro e he hk
  have hmem : ∀ d, d ∈ (entries.filter (toDelete now)).mergeSort olderFirst ↔ d ∈ entries ∧ d.kind ≠ .file ∧ Old now d := by
    intro d
    rw [List.mem_mergeSort, List.mem_filter]
    have hold : d.created < now - oneWeek ↔ Old now d := Iff.rfl
    simp [toDelete, hold]
  rcases deleteEach_keeps ((entries.filter (toDelete now)).mergeSort olderFirst) entries e he (by
    intro d hd hdk hn
    obtain ⟨hde, _, hdo⟩ := (hmem d).mp hd
    have : d = e := List.inj_on_of_nodup_map hnames hde he hn
    subst this
    rcases hk with hk | hk
    · exact hk hdk
    · exact hk hdo) with h | ⟨d, hd, hf⟩
  · exact h
  · exact absurd hf ((hmem d).mp hd).2.1

/-- **C65** is false with links: an old link to a directory makes the clean-up fail, and an old directory behind it in the order of age is not deleted. -/
theorem C65_link {now : ℚ} {entries : List OutEntry} {d : OutEntry} (hd : d ∈ entries) (hk : d.kind = .link) (ho : Old now d) : (cleanup now entries).raised = true := by
  have hmem : d ∈ (entries.filter (toDelete now)).mergeSort olderFirst := by
    rw [List.mem_mergeSort, List.mem_filter]
    refine ⟨hd, ?_⟩
    have : d.created < now - oneWeek := ho
    simp [toDelete, hk, this]
  unfold cleanup
  generalize (entries.filter (toDelete now)).mergeSort olderFirst = ds at hmem
  generalize entries = l
  induction ds generalizing l with
  | nil => simp at hmem
  | cons x ds ih =>
    rw [deleteEach]
    by_cases hx : x.kind = .link
    · rw [if_pos hx]
    · rw [if_neg hx]
      rcases List.mem_cons.mp hmem with rfl | hmem
      · exact absurd hk hx
      · exact ih hmem _

/-- One entry comes before another in the order of age, and of names if both have the same age. -/
def Spec.AgesBefore (a b : OutEntry) : Prop := a.created < b.created ∨ a.created = b.created ∧ a.name < b.name

theorem deleteEach_sorted {l entries : List OutEntry} (hs : l.Pairwise AgesBefore) (e : OutEntry) (he : e ∈ entries) (hel : e ∈ l) (hk : e.kind ≠ .link)
    (hn : ∀ d ∈ l, d.name = e.name → d = e) :
    e ∈ (deleteEach l entries).left ↔ ∃ d ∈ l, d.kind = .link ∧ AgesBefore d e := by
  induction l generalizing entries with
  | nil => simp at hel
  | cons x l ih =>
    have hx : ∀ d ∈ l, AgesBefore x d := (List.pairwise_cons.mp hs).1
    rw [deleteEach]
    by_cases hxl : x.kind = .link
    · rw [if_pos hxl]
      refine ⟨fun _ => ⟨x, by simp, hxl, ?_⟩, fun _ => he⟩
      rcases List.mem_cons.mp hel with rfl | hel
      · exact absurd hxl hk
      · exact hx e hel
    · rw [if_neg hxl]
      by_cases hex : x = e
      · subst hex
        refine ⟨fun h => absurd (List.mem_filter.mp (deleteEach_sub l _ x h)).2 (by simp), ?_⟩
        rintro ⟨d, hd, hdl, hdx⟩
        rcases List.mem_cons.mp hd with rfl | hd
        · exact absurd hdl hxl
        · have h1 := hx d hd
          exfalso
          rcases h1 with h1 | ⟨h1, h2⟩ <;> rcases hdx with h3 | ⟨h3, h4⟩
          · exact lt_asymm h1 h3
          · rw [h3] at h1; exact lt_irrefl _ h1
          · rw [h1] at h3; exact lt_irrefl _ h3
          · exact lt_asymm h2 h4
      · have hel' : e ∈ l := (List.mem_cons.mp hel).resolve_left (Ne.symm hex)
        have hne : e.name ≠ x.name := fun h => hex (hn x (by simp) h.symm)
        rw [ih (List.pairwise_cons.mp hs).2 (List.mem_filter.mpr ⟨he, by simpa using hne⟩) hel' fun d hd => hn d (by simp [hd])]
        constructor
        · rintro ⟨d, hd, h⟩; exact ⟨d, by simp [hd], h⟩
        · rintro ⟨d, hd, hdl, h⟩
          rcases List.mem_cons.mp hd with rfl | hd
          · exact absurd hdl hxl
          · exact ⟨d, hd, hdl, h⟩

/-- **C65**, which old directories survive when there are links: exactly those behind an old link in the order of age. -/
theorem C65_order (now : ℚ) (entries : List OutEntry) (hnames : (entries.map (·.name)).Nodup) (e : OutEntry) (he : e ∈ entries) (hk : e.kind = .directory) (ho : Old now e) :
    e ∈ (cleanup now entries).left ↔ ∃ d ∈ entries, d.kind = .link ∧ Old now d ∧ AgesBefore d e := by
  have hmem : ∀ d, d ∈ (entries.filter (toDelete now)).mergeSort olderFirst ↔ d ∈ entries ∧ d.kind ≠ .file ∧ Old now d := by
    intro d
    rw [List.mem_mergeSort, List.mem_filter]
    have hold : d.created < now - oneWeek ↔ Old now d := Iff.rfl
    simp [toDelete, hold]
  have hsort : ((entries.filter (toDelete now)).mergeSort olderFirst).Pairwise AgesBefore := by
    have h1 : ((entries.filter (toDelete now)).mergeSort olderFirst).Pairwise (fun a b => olderFirst a b = true) := by
      apply List.pairwise_mergeSort
      · intro a b c hab hbc
        simp only [olderFirst, decide_eq_true_eq] at hab hbc ⊢
        rcases hab with h | ⟨h, h'⟩ <;> rcases hbc with g | ⟨g, g'⟩
        · exact .inl (h.trans g)
        · exact .inl (g ▸ h)
        · exact .inl (h ▸ g)
        · exact .inr ⟨h.trans g, h'.trans g'⟩
      · intro a b
        simp only [olderFirst, Bool.or_eq_true, decide_eq_true_eq]
        rcases lt_trichotomy a.created b.created with h | h | h
        · exact .inl (.inl h)
        · rcases le_total a.name b.name with g | g
          · exact .inl (.inr ⟨h, g⟩)
          · exact .inr (.inr ⟨h.symm, g⟩)
        · exact .inr (.inl h)
    have h2 : ((entries.filter (toDelete now)).mergeSort olderFirst).Pairwise (fun a b => a.name ≠ b.name) := by
      have h3 : (((entries.filter (toDelete now)).mergeSort olderFirst).map (·.name)).Nodup := by
        rw [((List.mergeSort_perm _ _).map _).nodup_iff]
        exact hnames.sublist (List.filter_sublist.map _)
      exact List.pairwise_map.mp h3
    refine (h1.and h2).imp ?_
    rintro a b ⟨h, g⟩
    simp only [olderFirst, decide_eq_true_eq] at h
    rcases h with h | ⟨h, h'⟩
    · exact .inl h
    · exact .inr ⟨h, lt_of_le_of_ne h' g⟩
  unfold cleanup
  rw [deleteEach_sorted hsort e he ((hmem e).mpr ⟨he, by rw [hk]; decide, ho⟩) (by rw [hk]; decide)
    (fun d hd hn => List.inj_on_of_nodup_map hnames ((hmem d).mp hd).1 he hn)]
  constructor
  · rintro ⟨d, hd, hdl, h⟩
    exact ⟨d, ((hmem d).mp hd).1, hdl, ((hmem d).mp hd).2.2, h⟩
  · rintro ⟨d, hd, hdl, hdo, h⟩
    exact ⟨d, (hmem d).mpr ⟨hd, by rw [hdl]; decide, hdo⟩, hdl, h⟩

example : cleanup 1000000 [⟨"a", .directory, 100⟩, ⟨"b", .file, 100⟩, ⟨"c", .directory, 999999⟩, ⟨"d", .directory, 50⟩] = ⟨[⟨"b", .file, 100⟩, ⟨"c", .directory, 999999⟩], false⟩ :=
  (C65_exact_partial _ _ (by decide) (by decide +kernel)).trans (by decide +kernel)

example : cleanup 1000000 [⟨"a", .directory, 100⟩, ⟨"b", .link, 70⟩, ⟨"d", .directory, 50⟩] = ⟨[⟨"a", .directory, 100⟩, ⟨"b", .link, 70⟩], true⟩ := by
  have hs : ([⟨"a", .directory, 100⟩, ⟨"b", .link, 70⟩, ⟨"d", .directory, 50⟩] : List OutEntry).mergeSort olderFirst = [⟨"d", .directory, 50⟩, ⟨"b", .link, 70⟩, ⟨"a", .directory, 100⟩] := by
    have h1 : olderFirst ⟨"a", .directory, 100⟩ ⟨"b", .link, 70⟩ = false := by decide +kernel
    have h2 : olderFirst ⟨"b", .link, 70⟩ ⟨"d", .directory, 50⟩ = false := by decide +kernel
    simp [List.mergeSort, List.MergeSort.Internal.splitInTwo, List.cons_merge_cons, h1, h2]
  unfold cleanup
  rw [show ([⟨"a", .directory, 100⟩, ⟨"b", .link, 70⟩, ⟨"d", .directory, 50⟩] : List OutEntry).filter (toDelete 1000000) = [⟨"a", .directory, 100⟩, ⟨"b", .link, 70⟩, ⟨"d", .directory, 50⟩] by decide +kernel, hs]
  decide +kernel

end Ocelot
