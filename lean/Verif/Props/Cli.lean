import Verif.Spec.Cli
import Verif.Proofs.ExceptLemmas

/-! # C130, C131: validation against an XML schema, the command line -/

namespace Ocelot
open Spec

/-! ## C130 -/

theorem basename_join (d n : String) (hn : '/' ∉ n.toList) : basename (joinPath d n) = n := by
  have hh : n.toList.head? ≠ some '/' := fun h => hn (List.mem_of_mem_head? h)
  have key : ∀ l : List Char, (l = [] ∨ l.getLast? = some '/') → String.ofList ((l ++ n.toList).reverse.takeWhile (· != '/')).reverse = n := by
    intro l hl
    rw [List.reverse_append, List.takeWhile_append_of_pos (by
      intro c hc
      simp only [bne_iff_ne, ne_eq]
      rintro rfl
      exact hn (List.mem_reverse.mp hc))]
    have : l.reverse.takeWhile (· != '/') = [] := by
      rcases hl with rfl | hl
      · rfl
      · rw [← List.head?_reverse] at hl
        obtain ⟨t, ht⟩ := List.head?_eq_some_iff.mp hl
        rw [ht]
        rfl
    rw [this]
    simp
  unfold basename joinPath
  rw [if_neg hh]
  split
  · rename_i h
    rw [String.toList_append]
    exact key _ (h.imp (fun h => by simp [h]) id)
  · rw [String.toList_append]
    exact key _ (.inr (by simp))

section
variable {δ : Type} (X : XsdEnv δ)

/-- What can go wrong: there is no such directory or schema, the schema is not well-formed or no schema, or one of the files is not well-formed. -/
def Xsd.Ready (dirpath schema : String) (valid : δ → Bool) : Prop :=
  X.isDir dirpath = true ∧ X.isFile schema = true ∧ (∃ doc, X.parse schema = .ok doc ∧ X.schema doc = .ok valid) ∧
    ∀ n ∈ X.listdir dirpath, ".spold".toList <:+ (X.lower n).toList → ∃ doc, X.parse (joinPath dirpath n) = .ok doc

theorem flatMap_xsd {valid : δ → Bool} {dirpath : String} (l : List String) (hn : ∀ n ∈ l, '/' ∉ n.toList)
    (h : ∀ n ∈ l, ∃ doc, X.parse (joinPath dirpath n) = .ok doc) :
    flatMapE (xsdFile X valid) (l.map (joinPath dirpath)) = .ok (l.filter fun n => match X.parse (joinPath dirpath n) with | .ok doc => !valid doc | .error _ => false) := by
  induction l with
  | nil => rfl
  | cons n l ih =>
    obtain ⟨doc, hd⟩ := h n (by simp)
    have ih := ih (fun m hm => hn m (by simp [hm])) (fun m hm => h m (by simp [hm]))
    simp only [List.map_cons, flatMapE, ih, List.filter_cons, hd, xsdFile, basename_join dirpath n (hn n (by simp))]
    cases hv : valid doc <;> simp [hv, bind, Except.bind, pure, Except.pure]

/-- **C130** (partial: provided that all files are well-formed, see `C130_malformed`). The names that are printed are exactly those of the ecospold2 files that are not valid. -/
theorem C130_exact_partial {dirpath schema : String} {valid : δ → Bool} (hn : ∀ n ∈ X.listdir dirpath, '/' ∉ n.toList) (h : Xsd.Ready X dirpath schema valid) :
    ∃ names, validateAgainstXsd X dirpath schema = .ok names ∧ names.Sublist (X.listdir dirpath) ∧
      ∀ n ∈ X.listdir dirpath, n ∈ names ↔ ".spold".toList <:+ (X.lower n).toList ∧ ∀ doc, X.parse (joinPath dirpath n) = .ok doc → valid doc = false := by
  obtain ⟨hd, hs, ⟨doc, hp, hv⟩, hf⟩ := h
  have hsp : ∀ n, X.isSpold n = true ↔ ".spold".toList <:+ (X.lower n).toList := fun n => List.isSuffixOf_iff_suffix
  refine ⟨_, ?_, (List.filter_sublist (p := fun n => match X.parse (joinPath dirpath n) with | .ok doc => !valid doc | .error _ => false)).trans (List.filter_sublist (p := X.isSpold)), ?_⟩
  · simp only [validateAgainstXsd, hd, hs, hp, hv, Bool.not_true, Bool.false_eq_true, if_false, bind, Except.bind, pure, Except.pure]
    exact flatMap_xsd X _ (fun n hn' => hn n (List.mem_of_mem_filter hn')) fun n hn' => hf n (List.mem_of_mem_filter hn') ((hsp n).mp (List.of_mem_filter hn'))
  · intro n hmem
    simp only [List.mem_filter, hmem, true_and]
    constructor
    · rintro ⟨h1, h2⟩
      refine ⟨(hsp n).mp h1, fun d hd' => ?_⟩
      rw [hd'] at h2
      simpa using h2
    · rintro ⟨h1, h2⟩
      obtain ⟨d, hd'⟩ := hf n hmem h1
      refine ⟨(hsp n).mpr h1, ?_⟩
      simp [hd', h2 d hd']

theorem flatMap_xsd_error {valid : δ → Bool} {p : String} {l : List String} (hp : p ∈ l) {e : Err} (he : X.parse p = .error e) : ∃ e, flatMapE (xsdFile X valid) l = .error e := by
  induction l with
  | nil => cases hp
  | cons q l ih =>
    simp only [flatMapE, bind, Except.bind]
    cases hq : xsdFile X valid q with
    | error e => exact ⟨e, rfl⟩
    | ok r =>
      rcases List.mem_cons.mp hp with rfl | hp
      · simp [xsdFile, he, bind, Except.bind] at hq
      · obtain ⟨e, h⟩ := ih hp
        exact ⟨e, by rw [h]⟩

/-- **C130**, exactly when a verdict is given. -/
theorem C130_verdict_iff (dirpath schema : String) (hn : ∀ n ∈ X.listdir dirpath, '/' ∉ n.toList) :
    (∃ names, validateAgainstXsd X dirpath schema = .ok names) ↔ ∃ valid, Xsd.Ready X dirpath schema valid := by
  constructor
  · rintro ⟨names, h⟩
    unfold validateAgainstXsd at h
    cases hd : X.isDir dirpath <;> cases hs : X.isFile schema <;>
      simp only [hd, hs, Bool.not_true, Bool.not_false, if_true, if_false, Bool.false_eq_true, throw, throwThe, MonadExceptOf.throw, bind, Except.bind, pure, Except.pure,
        reduceCtorEq] at h
    cases hp : X.parse schema with
    | error e => simp [hp] at h
    | ok doc =>
      rw [hp] at h
      cases hv : X.schema doc with
      | error e => simp [hv] at h
      | ok valid =>
        simp only [hv] at h
        refine ⟨valid, hd, hs, ⟨doc, hp, hv⟩, fun n hmem hsp => ?_⟩
        cases hpn : X.parse (joinPath dirpath n) with
        | ok d => exact ⟨d, rfl⟩
        | error e =>
          obtain ⟨e', he'⟩ := flatMap_xsd_error X (valid := valid) (l := ((X.listdir dirpath).filter X.isSpold).map (joinPath dirpath))
            (List.mem_map_of_mem (List.mem_filter.mpr ⟨hmem, List.isSuffixOf_iff_suffix.mpr hsp⟩)) hpn
          rw [he'] at h
          cases h
  · rintro ⟨valid, h⟩
    obtain ⟨names, h, _⟩ := C130_exact_partial X hn h
    exact ⟨names, h⟩

/-- **C130** is false in full: one file that is not well-formed ends the validation, and none of the invalid files is named. -/
theorem C130_malformed {dirpath schema n : String} (hmem : n ∈ X.listdir dirpath) (hsp : ".spold".toList <:+ (X.lower n).toList) {e : Err}
    (he : X.parse (joinPath dirpath n) = .error e) : ∃ e', validateAgainstXsd X dirpath schema = .error e' := by
  cases h : validateAgainstXsd X dirpath schema with
  | error e' => exact ⟨e', rfl⟩
  | ok names =>
    exfalso
    unfold validateAgainstXsd at h
    cases hd : X.isDir dirpath <;> cases hs : X.isFile schema <;>
      simp only [hd, hs, Bool.not_true, Bool.not_false, if_true, if_false, Bool.false_eq_true, throw, throwThe, MonadExceptOf.throw, bind, Except.bind, pure, Except.pure,
        reduceCtorEq] at h
    cases hp : X.parse schema with
    | error e => simp [hp] at h
    | ok doc =>
      rw [hp] at h
      cases hv : X.schema doc with
      | error e => simp [hv] at h
      | ok valid =>
        simp only [hv] at h
        obtain ⟨e', he'⟩ := flatMap_xsd_error X (valid := valid) (l := ((X.listdir dirpath).filter X.isSpold).map (joinPath dirpath))
          (List.mem_map_of_mem (List.mem_filter.mpr ⟨hmem, List.isSuffixOf_iff_suffix.mpr hsp⟩)) he
        rw [he'] at h
        cases h

end

/-- Files are documents `1` (valid) and `0` (not valid); others are not well-formed. -/
def exampleXsd (files : List (String × ℕ)) : XsdEnv ℕ where
  isDir p := p == "data"
  isFile p := p == "EcoSpold02.xsd"
  listdir _ := files.map (·.1)
  lower s := if s = "B.SPOLD" then "b.spold" else s
  parse p := if p = "EcoSpold02.xsd" then .ok 7 else match (files.map fun f => ("data/" ++ f.1, f.2)).lookup p with | some 2 => .error .valueError | some n => .ok n | none => .error .osError
  schema n := if n = 7 then .ok (· == 1) else .error .valueError

example : validateAgainstXsd (exampleXsd [("a.spold", 0), ("B.SPOLD", 0), ("c.spold", 1), ("readme.txt", 2)]) "data" "EcoSpold02.xsd" = .ok ["a.spold", "B.SPOLD"] := by
  decide +kernel

example : validateAgainstXsd (exampleXsd [("a.spold", 0), ("b.spold", 2)]) "data" "EcoSpold02.xsd" = .error .valueError := by decide +kernel

example : ∃ valid, Xsd.Ready (exampleXsd [("a.spold", 0), ("B.SPOLD", 0), ("c.spold", 1), ("readme.txt", 2)]) "data" "EcoSpold02.xsd" valid :=
  (C130_verdict_iff _ _ _ (by decide +kernel)).mp ⟨["a.spold", "B.SPOLD"], by decide +kernel⟩

/-! ## C131 -/

/-- The exit status of a call. -/
def Spec.Exits {ω : Type} (outcome : ω × Except Stop Unit) (exit : ω × Exit) : Prop :=
  exit.1 = outcome.1 ∧ (exit.2.status = 0 ↔ outcome.2 = .ok ()) ∧ (exit.2.status = 0 ∨ exit.2.status = 1) ∧
    ∀ e, exit.2.uncaught = some e ↔ outcome.2 = .error (.raised e)

theorem cliMain_exits {ω : Type} (A : Api ω) (dataDir : String) (args : CliArgs) (w : ω) : Spec.Exits (cliCall A dataDir args w) (cliMain A dataDir args w) := by
  unfold cliMain Spec.Exits
  rcases cliCall A dataDir args w with ⟨w', (e | e) | ⟨⟩⟩ <;> simp

/-- **C131** (partial: all commands but `--list`, see `C131_list`). Every command does what the help text says, and the exit status is zero exactly if it came to an end. The empty
text is not the name of a schema. -/
theorem C131_commands_partial {ω : Type} (A : Api ω) (dataDir : String) (hd : dataDir ≠ "") (hs : dataDir.toList.getLast? ≠ some '/') (c : Spec.Command) (hl : ∀ b, c ≠ .list b)
    (hx : ∀ d, c ≠ .xsd d (some "")) (w : ω) : Spec.Exits (c.documented A dataDir w) (cliMain A dataDir c.args w) := by
  have key : cliCall A dataDir c.args w = c.documented A dataDir w := by
    cases c with
    | run d c n s f => rfl
    | cleanup => rfl
    | validate d => rfl
    | xsd d s =>
      cases s with
      | none =>
        have : joinPath dataDir "EcoSpold02.xsd" = dataDir ++ "/EcoSpold02.xsd" := by
          unfold joinPath
          rw [if_neg (by decide), if_neg (not_or.mpr ⟨hd, hs⟩), String.append_assoc]
          rfl
        simp only [cliCall, Spec.Command.args, Spec.Command.documented, orText, this, Bool.false_eq_true, if_false, if_true]
      | some s =>
        have : s ≠ "" := fun h => hx d (by rw [h])
        simp only [cliCall, Spec.Command.args, Spec.Command.documented, orText, this, Bool.false_eq_true, if_false, if_true]
    | list b => exact absurd rfl (hl b)
  rw [← key]
  exact cliMain_exits A dataDir c.args w

/-- **C131** is false in full: `-l` and `--list` end with a `ValueError`. -/
theorem C131_list {ω : Type} (A : Api ω) (dataDir : String) (b : Bool) (w : ω) : cliMain A dataDir (Spec.Command.list b).args w = (w, ⟨1, some .valueError⟩) := by
  cases b <;> rfl

/-- The two validations as commands: what they print, and an exception if there is one. -/
def validationApi {δ α : Type} (X : XsdEnv δ) (extract : Option String → Except Err (List α)) (check : α → Option String) : Api (List String) where
  systemModel _ _ _ _ _ w := (w, .ok ())
  cleanup w := (w, .ok ())
  validateDirectory d w :=
    match extract d with
    | .error e => (w, .error (.raised e))
    | .ok data => (w ++ (Ocelot.validateDirectory check data).errors.map (·.1), .ok ())
  validateXsd d s w :=
    match validateAgainstXsd X (d.getD "") s with
    | .error e => (w, .error (.raised e))
    | .ok names => (w ++ names, .ok ())

/-- **C131**, a consequence: the exit status of the two validations says nothing about validity. It is zero whenever the files could be read. -/
theorem C131_validation_status {δ α : Type} (X : XsdEnv δ) (extract : Option String → Except Err (List α)) (check : α → Option String) (dataDir d : String) (w : List String) :
    (∀ data, extract (some d) = .ok data → (cliMain (validationApi X extract check) dataDir (Spec.Command.validate d).args w).2 = ⟨0, none⟩) ∧
    ∀ s, s ≠ "" → ∀ names, validateAgainstXsd X d s = .ok names → (cliMain (validationApi X extract check) dataDir (Spec.Command.xsd d (some s)).args w) = (w ++ names, ⟨0, none⟩) := by
  constructor
  · intro data h
    simp only [cliMain, cliCall, Spec.Command.args, validationApi, h, Bool.false_eq_true, if_false, if_true]
  · intro s hs names h
    simp only [cliMain, cliCall, Spec.Command.args, validationApi, orText, hs, Option.getD_some, h, Bool.false_eq_true, if_false, if_true]

example : cliMain (validationApi (exampleXsd [("a.spold", 0), ("c.spold", 1)]) (fun _ => .ok ["x"]) fun _ => none) "ocelot/data" (Spec.Command.xsd "data" (some "EcoSpold02.xsd")).args [] =
    (["a.spold"], ⟨0, none⟩) := by decide +kernel

end Ocelot
