import Verif.Model.Lists
import Mathlib.Data.String.Basic

/-!
# The extraction cache and the clean-up of old runs

Models /repo/ocelot/io/__init__.py, /repo/ocelot/io/cleanup.py and the cache part of /repo/ocelot/filesystem.py.  Times are exact numbers.  The cache file
of one source directory is modelled; different directories have different cache files unless md5 collides.
-/

namespace Ocelot

/-! ## The source directory -/

/-- A file in the source directory, with its modification time. -/
structure SrcFile where
  name : String
  content : String
  mtime : ℚ
  deriving DecidableEq, Repr

/-- The source directory: its files in the order of `os.listdir`, and its own modification time. -/
structure SrcDir where
  files : List SrcFile
  mtime : ℚ
  deriving DecidableEq, Repr

/-- What extraction depends on: `str.lower`, and what is extracted from a file with this name and content. -/
structure ExtractEnv (α : Type) where
  lower : String → String
  parse : String → String → Except Err (List α)

/-- /repo/ocelot/io/extract_ecospold2.py:223-225: `filename.lower().endswith(".spold")`. -/
def ExtractEnv.isSpold {α : Type} (E : ExtractEnv α) (name : String) : Bool := ".spold".toList.isSuffixOf (E.lower name).toList

/-- /repo/ocelot/io/extract_ecospold2.py:215-249 `extract_ecospold2_directory`. `pool.map` returns results in the order of its arguments, so that both
branches give the same list; the first file that cannot be extracted raises. -/
def extractAll {α : Type} (E : ExtractEnv α) (d : SrcDir) : Except Err (List α) :=
  flatMapE (fun f : SrcFile => E.parse f.name f.content) (d.files.filter fun f => E.isSpold f.name)

/-! ## The cache -/

/-- /repo/ocelot/filesystem.py:104: files whose name begins with a dot are not looked at. -/
def isVisible (f : SrcFile) : Bool := f.name.toList.head? != some '.'

/-- Modification times of the files looked at. -/
def SrcDir.visibleTimes (d : SrcDir) : List ℚ := (d.files.filter isVisible).map (·.mtime)

/-- Python's `max` of a nonempty list. -/
def maxOf (a : ℚ) (l : List ℚ) : ℚ := l.foldl max a

/-- The cache file: the data and the time it was written. -/
structure CacheFile (α : Type) where
  data : List α
  mtime : ℚ

/-- /repo/ocelot/filesystem.py:91-107 `check_cache_directory`; the maximum over no files is a `ValueError`. -/
def checkCache {α : Type} (d : SrcDir) : Option (CacheFile α) → Except Err Bool
  | none => .ok false
  | some c =>
    match d.visibleTimes with
    | [] => .error .valueError
    | t :: l => .ok (decide (max d.mtime (maxOf t l) < c.mtime))

/-! ## Histories -/

/-- What can happen to the source directory. `at` is a position in the listing. -/
inductive FileOp where
  | create (pos : ℕ) (name content : String)
  | modify (pos : ℕ) (content : String)
  | rename (pos : ℕ) (name : String)
  | delete (pos : ℕ)
  deriving DecidableEq, Repr

/-- The operating system's part: writing to a file sets its modification time, creating, renaming and deleting set that of the directory. -/
def SrcDir.apply (d : SrcDir) (now : ℚ) : FileOp → SrcDir
  | .create pos name content => ⟨d.files.take pos ++ ⟨name, content, now⟩ :: d.files.drop pos, now⟩
  | .modify pos content => { d with files := d.files.modify pos fun f => { f with content := content, mtime := now } }
  | .rename pos name => ⟨d.files.modify pos fun f => { f with name := name }, now⟩
  | .delete pos => ⟨d.files.eraseIdx pos, now⟩

/-- The directory and the cache file. -/
structure Store (α : Type) where
  dir : SrcDir
  cache : Option (CacheFile α)

/-- An event: a change of the files, or a call of `extract_directory`, during which files can also change (after they were read). -/
inductive StoreEvent where
  | file (now : ℚ) (op : FileOp)
  | extract (useCache : Bool) (during : List (ℚ × FileOp)) (finish : ℚ)
  deriving DecidableEq, Repr

/-- /repo/ocelot/io/__init__.py:15-30 `extract_directory`. -/
def extractDirectory {α : Type} (E : ExtractEnv α) (s : Store α) (useCache : Bool) (during : List (ℚ × FileOp)) (finish : ℚ) : Store α × Except Err (List α) :=
  let dir' := during.foldl (fun d p => d.apply p.1 p.2) s.dir
  if !useCache then ({ s with dir := dir' }, extractAll E s.dir)
  else
    match checkCache s.dir s.cache, s.cache with
    | .error e, _ => ({ s with dir := dir' }, .error e)
    | .ok true, some c => ({ s with dir := dir' }, .ok c.data)
    | .ok _, _ =>
      match extractAll E s.dir with
      | .error e => ({ s with dir := dir' }, .error e)
      | .ok data => (⟨dir', some ⟨data, finish⟩⟩, .ok data)

/-- The state after an event. -/
def storeStep {α : Type} (E : ExtractEnv α) (s : Store α) : StoreEvent → Store α
  | .file now op => { s with dir := s.dir.apply now op }
  | .extract useCache during finish => (extractDirectory E s useCache during finish).1

/-! ## Clean-up -/

/-- An entry of the output directory. `link` is a symbolic link to a directory, whose creation time is that of its target. -/
inductive EntryKind where
  | file | directory | link
  deriving DecidableEq, Repr

structure OutEntry where
  name : String
  kind : EntryKind
  created : ℚ
  deriving DecidableEq, Repr

/-- What is left, and whether an exception was raised. -/
structure CleanupResult where
  left : List OutEntry
  raised : Bool
  deriving DecidableEq, Repr

/-- /repo/ocelot/io/cleanup.py:10 -/
def oneWeek : ℚ := 7 * 24 * 60 * 60

/-- /repo/ocelot/io/cleanup.py:13-19; `isdir` follows links. -/
def toDelete (now : ℚ) (e : OutEntry) : Bool := e.kind != .file && decide (e.created < now - oneWeek)

/-- The order of the tuples `(created, report, dirpath)`, cleanup.py:24. -/
def olderFirst (a b : OutEntry) : Bool := decide (a.created < b.created ∨ (a.created = b.created ∧ a.name ≤ b.name))

/-- cleanup.py:30-31; `rmtree` raises `OSError` for a link. -/
def deleteEach : List OutEntry → List OutEntry → CleanupResult
  | [], l => ⟨l, false⟩
  | d :: ds, l => if d.kind = .link then ⟨l, true⟩ else deleteEach ds (l.filter fun e => e.name ≠ d.name)

/-- /repo/ocelot/io/cleanup.py:8-31 `cleanup_data_directory`. -/
def cleanup (now : ℚ) (entries : List OutEntry) : CleanupResult := deleteEach ((entries.filter (toDelete now)).mergeSort olderFirst) entries

end Ocelot
