import Verif.Model.Framework
import Verif.Model.Extract

/-!
# File names, the output directory of a run, the cache files of several source directories

Models the parts of /repo/ocelot/filesystem.py that name and write files, as they are used by /repo/ocelot/model.py.

Texts are lists of characters. Unicode normalisation, the classes `\w` and `\s` of regular expressions, and md5 are oracles. Limits on the length of
file names and full disks are not modelled. Pickling is the identity.
-/

namespace Ocelot

/-- What `safe_filename` depends on. -/
structure NameEnv where
  /-- `unicodedata.normalize('NFKD', _)` -/
  nfkd : List Char → List Char
  /-- `\w` -/
  isWord : Char → Bool
  /-- `\s` -/
  isSpace : Char → Bool
  /-- `hashlib.md5(_.encode("utf8")).hexdigest()` -/
  md5 : List Char → List Char

/-- filesystem.py:23-32 `re.sub('[-\s]+', '-', _)`; the flag tells that the character before belongs to the run. -/
def squeeze (sep : Char → Bool) : Bool → List Char → List Char
  | _, [] => []
  | run, c :: s => if sep c then (if run then squeeze sep true s else '-' :: squeeze sep true s) else c :: squeeze sep false s

/-- `str.strip` -/
def stripSpace (space : Char → Bool) (s : List Char) : List Char := ((s.dropWhile space).reverse.dropWhile space).reverse

/-- filesystem.py:14, 27-30: `re_slugify.sub('', _)` keeps word characters, white space and dashes. -/
def slugify (E : NameEnv) (s : List Char) : List Char := s.filter fun c => E.isWord c || E.isSpace c || c == '-'

/-- /repo/ocelot/filesystem.py:17-35 `safe_filename` for a text. -/
def safeFilename (E : NameEnv) (s : List Char) : List Char :=
  squeeze (fun c => c == '-' || E.isSpace c) false (stripSpace E.isSpace (slugify E (E.nfkd s))) ++ '.' :: E.md5 s

/-! ## Output directories -/

/-- What the files of a run contain. -/
inductive Content (α : Type) where
  | log
  | result (data : List α)
  | followed (index : ℕ) (function follow : List Char) (data : List α)
  deriving DecidableEq, Repr

/-- An output directory: the directories in it (the empty path is itself) and the files; paths are relative to it. -/
structure OutDir (α : Type) where
  dirs : List (List (List Char))
  files : List (List (List Char) × Content α)
  deriving DecidableEq, Repr

/-- The components of a path. -/
def splitSlash : List Char → List (List Char)
  | [] => [[]]
  | c :: s =>
    if c = '/' then [] :: splitSlash s
    else match splitSlash s with
      | [] => [[c]]
      | w :: ws => (c :: w) :: ws

/-- `open(path, "wb")` and writing: the directory must exist (a `FileNotFoundError`), the file may. Paths with empty or dotted components in front of the
file name do not occur for existing directories. A null character is a `ValueError`. -/
def OutDir.write {α : Type} (o : OutDir α) (path : List Char) (c : Content α) : Except Err (OutDir α) :=
  if Char.ofNat 0 ∈ path then .error .valueError
  else if (splitSlash path).dropLast ∈ o.dirs then .ok { o with files := dictSet (splitSlash path) c o.files }
  else .error .osError

/-- `str(index)` -/
def indexText (i : ℕ) : List Char := Nat.toDigits 10 i

/-- filesystem.py:144-151: the file name of an intermediate result with this number and function name. -/
def resultName (E : NameEnv) (i : ℕ) (name : List Char) : List Char := indexText i ++ '.' :: safeFilename E name ++ ".pickle".toList

/-- filesystem.py:144-151 for the final result (model.py:131). -/
def finalName : List Char := "final-results.pickle".toList

/-- filesystem.py:166-170: the path of followed datasets. -/
def followName (i : ℕ) (follow : List Char) : List Char := "follow/".toList ++ indexText i ++ '.' :: follow ++ ".pickle".toList

/-- /repo/ocelot/logger.py:47, 59 -/
def logNames : List (List Char) := ["report.log.json".toList, "detailed.log.json".toList]

/-- A run's wishes: the save strategy and the text to follow (`none` or an empty text: nothing); `path` is `ds['filepath']`. -/
structure FileSettings (α : Type) where
  save : ℕ → Bool
  follow : Option (List Char)
  path : α → List Char

/-- `if follow:` -/
def FileSettings.following {α : Type} (cfg : FileSettings α) : Option (List Char) :=
  match cfg.follow with
  | some [] => none
  | o => o

/-- `sub in s` -/
def isInfixText (sub s : List Char) : Bool := s.tails.any fun t => sub.isPrefixOf t

/-- filesystem.py:123-140 `OutputDir` and model.py:112-113: the directory with its logs. -/
def newOutDir {α : Type} (cfg : FileSettings α) : OutDir α :=
  { dirs := match cfg.following with
      | none => [[]]
      | some _ => [[], ["follow".toList]]
    files := logNames.map fun n => ([n], .log) }

/-- /repo/ocelot/filesystem.py:143-153 `save_intermediate_result`, model.py:59-60 -/
def saveResult {α : Type} (E : NameEnv) (cfg : FileSettings α) (i : ℕ) (name : List Char) (data : List α) (o : OutDir α) : Except Err (OutDir α) :=
  if cfg.save i then o.write (resultName E i name) (.result data) else .ok o

/-- /repo/ocelot/filesystem.py:156-172 `save_specific_dataset`, model.py:62-64 -/
def saveFollowed {α : Type} (cfg : FileSettings α) (i : ℕ) (name : List Char) (data : List α) (o : OutDir α) : Except Err (OutDir α) :=
  match cfg.following with
  | none => .ok o
  | some follow =>
    let selected := data.filter fun ds => isInfixText follow (cfg.path ds)
    if selected.isEmpty then .ok o else o.write (followName i follow) (.followed i name follow selected)

/-- /repo/ocelot/model.py:125-128 and 34-67 for a list of functions with names, seen from the output directory. A file that cannot be written ends the run. -/
def runFiles {α : Type} (E : NameEnv) (cfg : FileSettings α) : ℕ → List (Fn α) → List α → OutDir α → OutDir α × Except Stop (List α)
  | _, [], d, o => (o, .ok d)
  | i, f :: fs, d, o =>
    match f.name, (f.run d).2 with
    | none, _ => (o, .error (.raised .attributeError))
    | some _, .error stop => (o, .error stop)
    | some name, .ok d' =>
      match saveResult E cfg i name.toList d' o with
      | .error e => (o, .error (.raised e))
      | .ok o₁ =>
        match saveFollowed cfg i name.toList d' o₁ with
        | .error e => (o₁, .error (.raised e))
        | .ok o₂ => runFiles E cfg (i + 1) fs d' o₂

/-- model.py:109-131: the run in its new output directory, up to the final result. -/
def runInDirectory {α : Type} (E : NameEnv) (cfg : FileSettings α) (fs : List (Fn α)) (d : List α) : OutDir α × Except Stop (List α) :=
  match runFiles E cfg 0 fs d (newOutDir cfg) with
  | (o, .error stop) => (o, .error stop)
  | (o, .ok d') =>
    match o.write finalName (.result d') with
    | .error e => (o, .error (.raised e))
    | .ok o' => (o', .ok d')

/-! ## Cache files of several source directories -/

/-- What the name of a cache file depends on. -/
structure PathEnv where
  abspath : String → String
  md5 : String → String
  cacheDir : String

/-- filesystem.py:12 -/
def ioVersion : String := "8"

/-- /repo/ocelot/filesystem.py:79-88 `get_cache_filepath_for_data_path` -/
def cachePath (P : PathEnv) (dataPath : String) : String := P.cacheDir ++ "/" ++ P.md5 (P.abspath dataPath ++ ioVersion) ++ ".pickle"

/-- All source directories, by absolute path, and all cache files. -/
structure World (α : Type) where
  dirs : String → SrcDir
  caches : String → Option (CacheFile α)

/-- The source directory that `data_path` names, and its cache file. -/
def World.store {α : Type} (P : PathEnv) (w : World α) (dataPath : String) : Store α := ⟨w.dirs (P.abspath dataPath), w.caches (cachePath P (P.abspath dataPath))⟩

/-- Put a directory and its cache file back. -/
def World.put {α : Type} (P : PathEnv) (w : World α) (dataPath : String) (s : Store α) : World α :=
  { dirs := fun p => if p = P.abspath dataPath then s.dir else w.dirs p
    caches := fun c => if c = cachePath P (P.abspath dataPath) then s.cache else w.caches c }

/-- An event in one of the directories: files change, or `extract_directory` (io/__init__.py:15-30) is called with this path. -/
def worldStep {α : Type} (P : PathEnv) (E : ExtractEnv α) (w : World α) (ev : String × StoreEvent) : World α :=
  w.put P ev.1 (storeStep E (w.store P ev.1) ev.2)

/-- What `extract_directory(data_path)` returns. -/
def extractFrom {α : Type} (P : PathEnv) (E : ExtractEnv α) (w : World α) (dataPath : String) (useCache : Bool) : Except Err (List α) :=
  (extractDirectory E (w.store P dataPath) useCache [] 0).2

end Ocelot
