import Verif.Model.Storage

/-!
# Interrupted and simultaneous extractions, interrupted clean-ups

Models /repo/ocelot/filesystem.py:91-120, /repo/ocelot/io/__init__.py:15-30 and /repo/ocelot/io/cleanup.py with the bytes of the cache file, so that a
program can end (power failure, `kill`, `KeyboardInterrupt`, full disk) between any two of its effects on the disk.  `Model/Storage.lean` has the same
functions for calls that are completed.
-/

namespace Ocelot

/-! ## One program at a time -/

/-- `pickle.dump` and `pickle.load`. -/
structure PickleEnv (α : Type) where
  dump : List α → List UInt8
  load : List UInt8 → Except Err (List α)

/-- The cache file: its bytes, and its modification time. -/
structure RawCache where
  bytes : List UInt8
  mtime : ℚ
  deriving DecidableEq, Repr

structure RawStore where
  dir : SrcDir
  cache : Option RawCache
  deriving DecidableEq, Repr

/-- /repo/ocelot/filesystem.py:91-107 `check_cache_directory`; it looks at the time of the cache file only. -/
def rawFresh (d : SrcDir) (c : Option RawCache) : Except Err Bool := checkCache d (c.map fun r => (⟨[], r.mtime⟩ : CacheFile Unit))

/-- /repo/ocelot/io/__init__.py:21-28: the data, and whether `cache_data` is called with them. -/
def extractPhase {α : Type} (E : ExtractEnv α) (P : PickleEnv α) (s : RawStore) (useCache : Bool) : Except Err (List α) × Bool :=
  if !useCache then (extractAll E s.dir, false)
  else
    match rawFresh s.dir s.cache, s.cache with
    | .error e, _ => (.error e, false)
    | .ok true, some r => (P.load r.bytes, false)
    | .ok _, _ => (extractAll E s.dir, true)

/-- A completed call of `extract_directory`, io/__init__.py:15-30; `finish` is when the cache file was written. -/
def extractWhole {α : Type} (E : ExtractEnv α) (P : PickleEnv α) (s : RawStore) (useCache : Bool) (finish : ℚ) : RawStore × Except Err (List α) :=
  match extractPhase E P s useCache with
  | (.ok data, true) => ({ s with cache := some ⟨P.dump data, finish⟩ }, .ok data)
  | (r, _) => (s, r)

/-- A call of `extract_directory` that is interrupted.  filesystem.py:117-120 `cache_data` first empties the file (`open(..., "wb")`) and then writes the
pickle; `written` is how many bytes have reached the disk at the time `now` of the last write, `none` if the file was not opened. -/
def extractInterrupted {α : Type} (E : ExtractEnv α) (P : PickleEnv α) (s : RawStore) (useCache : Bool) (now : ℚ) (written : Option ℕ) : RawStore :=
  match extractPhase E P s useCache, written with
  | (.ok data, true), some k => { s with cache := some ⟨(P.dump data).take k, now⟩ }
  | _, _ => s

/-- What can happen to a source directory and its cache. -/
inductive CrashEvent where
  | file (now : ℚ) (op : FileOp)
  | extract (useCache : Bool) (finish : ℚ)
  | interrupted (useCache : Bool) (now : ℚ) (written : Option ℕ)
  deriving DecidableEq, Repr

def crashStep {α : Type} (E : ExtractEnv α) (P : PickleEnv α) (s : RawStore) : CrashEvent → RawStore
  | .file now op => { s with dir := s.dir.apply now op }
  | .extract useCache finish => (extractWhole E P s useCache finish).1
  | .interrupted useCache now written => extractInterrupted E P s useCache now written

/-! ## Several programs at the same time -/

/-- One file and the programs that write it: how far each has got, and whether it is still writing. -/
structure Shared where
  file : List UInt8
  pos : ℕ → ℕ
  writing : ℕ → Bool

/-- What a program does in `cache_data`: open the file, write some more of its bytes, and end (closing the file, or by an interruption). -/
inductive WriterOp where
  | opens (i : ℕ)
  | writes (i : ℕ) (n : ℕ)
  | ends (i : ℕ)
  deriving DecidableEq, Repr

/-- The operating system's `write` at a position; a gap is filled with zeros. -/
def writeAt (f : List UInt8) (p : ℕ) (chunk : List UInt8) : List UInt8 :=
  (f ++ List.replicate (p - f.length) 0).take p ++ chunk ++ f.drop (p + chunk.length)

/-- /repo/ocelot/filesystem.py:117-120 `cache_data` in several programs; program `i` writes `bytes i`. -/
def writerStep (bytes : ℕ → List UInt8) (s : Shared) : WriterOp → Shared
  | .opens i => ⟨[], fun j => if j = i then 0 else s.pos j, fun j => if j = i then true else s.writing j⟩
  | .writes i n =>
    if s.writing i then
      let chunk := ((bytes i).drop (s.pos i)).take n
      { s with file := writeAt s.file (s.pos i) chunk, pos := fun j => if j = i then s.pos i + chunk.length else s.pos j }
    else s
  | .ends i => { s with writing := fun j => if j = i then false else s.writing j }

/-! ## Interrupted clean-up -/

/-- An entry of the output directory with its content. `os.path.getctime` is the time of the last change of the directory on Linux. -/
structure OutTree extends OutEntry where
  content : List String
  deriving DecidableEq, Repr

/-- `shutil.rmtree` interrupted after it deleted `j` entries of the directory's content. -/
def partlyDeleted (now : ℚ) (j : ℕ) (e : OutTree) : OutTree :=
  if j = 0 then e else { e with created := now, content := e.content.drop j }

/-- The directories that `cleanup_data_directory` deletes, in this order (cleanup.py:13-31); `rmtree` ends the program at a link. -/
def deletedInOrder (now : ℚ) (entries : List OutTree) : List OutTree :=
  ((entries.filter fun e => toDelete now e.toOutEntry).mergeSort fun a b => olderFirst a.toOutEntry b.toOutEntry).takeWhile fun e => e.kind != .link

/-- /repo/ocelot/io/cleanup.py:8-31 interrupted at the time `now`, after `m` directories were deleted and `j` entries of the next one. -/
def cleanupInterrupted (now : ℚ) (m j : ℕ) (entries : List OutTree) : List OutTree :=
  let left := entries.filter fun e => decide (∀ d ∈ (deletedInOrder now entries).take m, e.name ≠ d.name)
  match (deletedInOrder now entries)[m]? with
  | none => left
  | some d => left.map fun e => if e.name = d.name then partlyDeleted now j e else e

end Ocelot
