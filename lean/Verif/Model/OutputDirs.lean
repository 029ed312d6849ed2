import Verif.Model.Basic

/-! # Where a run puts its output

/repo/ocelot/filesystem.py:38-76 and 123-140. A path is a list of names, the last one first; the root is the empty list. Relative paths are taken to be resolved, and there are no links.
New directories are writeable. -/

namespace Ocelot

/-- A path, the last name first. -/
abbrev Path := List String

/-- What is at a path. -/
inductive Node where
  | file
  | dir (writeable : Bool)
  deriving DecidableEq, Repr

/-- A file system. -/
abbrev Tree := Path → Option Node

/-- `os.path.isdir` -/
def Tree.isDir (t : Tree) (p : Path) : Bool :=
  match t p with
  | some (.dir _) => true
  | _ => false

/-- `os.mkdir`: nothing must be at the path and the parent must be a writeable directory. -/
def Tree.mkdir (t : Tree) : Path → Tree × Except Err Unit
  | [] => (t, .error .osError)
  | c :: parent =>
    if t (c :: parent) = none ∧ t parent = some (.dir true) then (fun q => if q = c :: parent then some (.dir true) else t q, .ok ())
    else (t, .error .osError)

/-- `os.makedirs`: the missing directories above first. -/
def Tree.makedirs (t : Tree) : Path → Tree × Except Err Unit
  | [] => (t, .error .osError)
  | c :: parent =>
    if t parent = none then
      match t.makedirs parent with
      | (t', .error e) => (t', .error e)
      | (t', .ok ()) => t'.mkdir (c :: parent)
    else t.mkdir (c :: parent)

/-- /repo/ocelot/filesystem.py:38-42 `create_dir` -/
def createDir (t : Tree) (p : Path) : Tree × Except Err Unit := if t.isDir p then (t, .ok ()) else t.makedirs p

/-- /repo/ocelot/filesystem.py:45-47 `check_dir` -/
def checkDir (t : Tree) (p : Path) : Bool := t p == some (.dir true)

/-- `os.environ['OCELOT_OUTPUT']` -/
inductive EnvVar where
  | unset
  | empty
  | path (p : Path)
  deriving DecidableEq, Repr

/-- What the choice depends on. -/
structure DirEnv where
  var : EnvVar
  /-- `appdirs.user_data_dir("Ocelot", "ocelot_project")` -/
  base : Path
  /-- `uuid.uuid4().hex` -/
  id : String

/-- /repo/ocelot/filesystem.py:72-76 `get_base_directory` followed by `create_dir` of a directory in it, lines 62 and 69. -/
def createInBase (E : DirEnv) (name : String) (t : Tree) : Tree × Except Err Path :=
  match createDir t E.base with
  | (t₁, .error e) => (t₁, .error e)
  | (t₁, .ok ()) =>
    match createDir t₁ (name :: E.base) with
    | (t₂, .error e) => (t₂, .error e)
    | (t₂, .ok ()) => (t₂, .ok (name :: E.base))

/-- /repo/ocelot/filesystem.py:50-62 `get_output_directory`. `os.makedirs('')` raises. -/
def getOutputDirectory (E : DirEnv) (t : Tree) : Tree × Except Err Path :=
  match E.var with
  | .unset => createInBase E "model-runs" t
  | .empty => createInBase E "model-runs" t
  | .path p =>
    match createDir t p with
    | (t₁, .ok ()) => (t₁, .ok p)
    | (t₁, .error _) => createInBase E "model-runs" t₁

/-- /repo/ocelot/filesystem.py:64-70 `get_cache_directory` -/
def getCacheDirectory (E : DirEnv) (t : Tree) : Tree × Except Err Path :=
  match createInBase E "cache" t with
  | (t₁, .error e) => (t₁, .error e)
  | (t₁, .ok p) => if checkDir t₁ p then (t₁, .ok p) else (t₁, .error .assertionError)

/-- /repo/ocelot/filesystem.py:130-140: the directory of the run in `d`. -/
def createRunDir (E : DirEnv) (follow : Bool) (d : Path) (t : Tree) : Tree × Except Err Path :=
  match createDir t (E.id :: d) with
  | (t₁, .error _) => (t₁, .error .outputDirectoryError)
  | (t₁, .ok ()) =>
    if checkDir t₁ (E.id :: d) then
      if follow then
        match createDir t₁ ("follow" :: E.id :: d) with
        | (t₂, .error _) => (t₂, .error .outputDirectoryError)
        | (t₂, .ok ()) => (t₂, .ok (E.id :: d))
      else (t₁, .ok (E.id :: d))
    else (t₁, .error .outputDirectoryError)

/-- /repo/ocelot/filesystem.py:125-140 `OutputDir.__init__` -/
def outputDir (E : DirEnv) (dirPath : Option Path) (follow : Bool) (t : Tree) : Tree × Except Err Path :=
  match dirPath with
  | some d => createRunDir E follow d t
  | none =>
    match getOutputDirectory E t with
    | (t₁, .error e) => (t₁, .error e)
    | (t₁, .ok d) => createRunDir E follow d t₁

end Ocelot
