import Verif.Model.Framework
import Verif.Model.Schema

/-!
# The command line and the validation against an XML schema

Models /repo/ocelot/bin/ocelot_cli.py and `validate_directory_against_xsd` of /repo/ocelot/io/validate_ecospold2.py. The parser of command lines (docopt) is not
modelled: the model begins with the dictionary that it returns. Nor is lxml: whether a file is well-formed and whether a document is valid are parameters.
-/

namespace Ocelot

/-! ## Validation against an XML schema -/

/-- The file system and lxml. -/
structure XsdEnv (δ : Type) where
  isDir : String → Bool
  isFile : String → Bool
  listdir : String → List String
  lower : String → String
  parse : String → Except Err δ
  schema : δ → Except Err (δ → Bool)

/-- `os.path.join(a, b)` (posixpath). -/
def joinPath (a b : String) : String :=
  if b.toList.head? = some '/' then b
  else if a = "" ∨ a.toList.getLast? = some '/' then a ++ b
  else a ++ "/" ++ b

/-- `os.path.basename(p)` (posixpath): what follows the last separator. -/
def basename (p : String) : String := String.ofList (p.toList.reverse.takeWhile (· != '/')).reverse

/-- `filename.lower().endswith(".spold")`, validate_ecospold2.py:18-21. -/
def XsdEnv.isSpold {δ : Type} (X : XsdEnv δ) (name : String) : Bool := ".spold".toList.isSuffixOf (X.lower name).toList

/-- validate_ecospold2.py:28-31: one file. The names that are kept in `errors`. -/
def xsdFile {δ : Type} (X : XsdEnv δ) (valid : δ → Bool) (path : String) : Except Err (List String) := do
  let doc ← X.parse path
  if valid doc then return [] else return [basename path]

/-- /repo/ocelot/io/validate_ecospold2.py:10-37 `validate_directory_against_xsd`: the names it prints; it prints "All files valid" if there are none. -/
def validateAgainstXsd {δ : Type} (X : XsdEnv δ) (dirpath schema : String) : Except Err (List String) := do
  if !X.isDir dirpath then throw .assertionError
  if !X.isFile schema then throw .assertionError
  let doc ← X.parse schema
  let valid ← X.schema doc
  flatMapE (xsdFile X valid) (((X.listdir dirpath).filter X.isSpold).map (joinPath dirpath))

/-! ## The command line -/

/-- The dictionary that docopt returns, bin/ocelot_cli.py:15-24. -/
structure CliArgs where
  run : Bool := false
  cleanup : Bool := false
  validate : Bool := false
  xsd : Bool := false
  l : Bool := false
  list : Bool := false
  noshow : Bool := false
  dirpath : Option String := none
  config : Option String := none
  schema : Option String := none
  save : Option String := none
  follow : Option String := none
  deriving DecidableEq, Repr

/-- The functions that the command line calls, on a world `ω` (files, printed text). -/
structure Api (ω : Type) where
  systemModel : (dirpath config : Option String) → (show_ : Bool) → (save follow : Option String) → ω → ω × Except Stop Unit
  validateDirectory : Option String → ω → ω × Except Stop Unit
  validateXsd : Option String → String → ω → ω × Except Stop Unit
  cleanup : ω → ω × Except Stop Unit

/-- `a or b` for texts: the empty text is false. -/
def orText (a : Option String) (b : String) : String :=
  match a with
  | none => b
  | some s => if s = "" then b else s

/-- /repo/ocelot/bin/ocelot_cli.py:49-69: the call that is made. -/
def cliCall {ω : Type} (A : Api ω) (dataDir : String) (args : CliArgs) (w : ω) : ω × Except Stop Unit :=
  if args.run then A.systemModel args.dirpath args.config (!args.noshow) args.save args.follow w
  else if args.validate then A.validateDirectory args.dirpath w
  else if args.xsd then A.validateXsd args.dirpath (orText args.schema (joinPath dataDir "EcoSpold02.xsd")) w
  else if args.cleanup then A.cleanup w
  else (w, .error (.raised .valueError))

/-- How the process ends: the exit status, and the exception if it was not caught. -/
structure Exit where
  status : ℕ
  uncaught : Option Err
  deriving DecidableEq, Repr

/-- /repo/ocelot/bin/ocelot_cli.py:46-74 `main`. An interruption that `system_model` has caught arrives as `SystemExit(1)`, any other one is caught here and becomes the
same; other exceptions end the interpreter with status 1. -/
def cliMain {ω : Type} (A : Api ω) (dataDir : String) (args : CliArgs) (w : ω) : ω × Exit :=
  match cliCall A dataDir args w with
  | (w', .ok ()) => (w', ⟨0, none⟩)
  | (w', .error .interrupted) => (w', ⟨1, none⟩)
  | (w', .error (.raised e)) => (w', ⟨1, some e⟩)

end Ocelot
