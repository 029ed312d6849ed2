import Verif.Model.Params
import Verif.Model.ActivityLinks

/-!
# Rewriting formula text

Models /repo/ocelot/transformations/parameterization/python_compatibility.py,
implicit_references.py and the text substitutions of known_ecoinvent_issues.py.

Text is a list of characters. Regular expressions are modelled by functions that compute the same matches.
The whitespace test of `str.strip`, `str(float(x))` and python's parser are parameters.  Logging is not modelled.
-/

namespace Ocelot

/-- Text. -/
abbrev Text := List Char

/-- `str.replace(pat, rep)` for nonempty `pat`: leftmost non-overlapping occurrences; `skip` characters still belong to the
last occurrence. -/
def replaceGo (pat rep : Text) : ℕ → Text → Text
  | _, [] => []
  | skip + 1, _ :: s => replaceGo pat rep skip s
  | 0, c :: s =>
    if pat.isPrefixOf (c :: s) then rep ++ replaceGo pat rep (pat.length - 1) s
    else c :: replaceGo pat rep 0 s

/-- `str.replace(pat, rep)` for nonempty `pat`. -/
def replaceAll (pat rep s : Text) : Text := replaceGo pat rep 0 s

/-- Python's `pat in s`. -/
def occurs (pat s : Text) : Bool := decide (pat <:+: s)

/-! ## `if(a;b;c)` -/

/-- The text matched by `IF_BEGINNING`, python_compatibility.py:37. -/
def ifBeginning : Text := ['i', 'f', '(']

/-- python_compatibility.py:50-68: the loop over the parentheses; `prev` is the character before the current one. -/
def boundaryGo (prev : Char) (pos : ℕ) (stack : List ℕ) : Text → Except Err (ℕ × ℕ)
  | [] => if stack = [] then .error .indexError else .error .valueError
  | c :: s =>
    if prev = '\\' then boundaryGo c (pos + 1) stack s
    else if c = '(' then boundaryGo c (pos + 1) ((pos + 1) :: stack) s
    else if c = ')' then
      match stack with
      | [] => .error .indexError
      | [p] => .ok (p, pos)
      | _ :: rest => boundaryGo c (pos + 1) rest s
    else boundaryGo c (pos + 1) stack s

/-- /repo/ocelot/transformations/parameterization/python_compatibility.py:43-68 `find_if_boundaries`.
At position 0 the test `string[pos-1]` looks at the last character. -/
def findIfBoundaries (s : Text) : Except Err (ℕ × ℕ) := boundaryGo (s.getLast?.getD ' ') 0 [] s

/-- Split at the first semicolon. -/
def splitSemicolon : Text → Option (Text × Text)
  | [] => none
  | c :: s => if c = ';' then some ([], s) else (splitSemicolon s).map fun p => (c :: p.1, p.2)

/-- `str.strip()`; `ws` tells which characters are whitespace. -/
def strip (ws : Char → Bool) (s : Text) : Text := ((s.dropWhile ws).reverse.dropWhile ws).reverse

/-- The groups of `COMPLETE_IF`, python_compatibility.py:38, for a text that ends with a closing parenthesis: condition and
first alternative are nonempty and without semicolon, the second alternative is nonempty and without newline. -/
def completeIf (s : Text) : Option (Text × Text × Text) :=
  if ifBeginning.isPrefixOf s && s.getLast? == some ')' then
    match splitSemicolon ((s.drop 3).dropLast) with
    | none => none
    | some (c, r) =>
      match splitSemicolon r with
      | none => none
      | some (t, f) => if c = [] ∨ t = [] ∨ f = [] ∨ '\n' ∈ f then none else some (c, t, f)
  else none

/-- The python text for a conditional, python_compatibility.py:76-81. -/
def pythonIf (ws : Char → Bool) (c t f : Text) : Text :=
  if t = f then ['('] ++ strip ws t ++ [')']
  else ['(', '('] ++ t ++ [')', ' ', 'i', 'f', ' ', '('] ++ c ++ [')', ' ', 'e', 'l', 's', 'e', ' ', '('] ++ f ++ [')', ')']

/-- /repo/ocelot/transformations/parameterization/python_compatibility.py:71-82 `replace_if_statement`. The callers pass a
text that ends with `)`, and then a match is the whole text. No match is an `AttributeError`. -/
def replaceIfStatement (ws : Char → Bool) (s : Text) : Except Err Text :=
  match completeIf s with
  | none => .error .attributeError
  | some (c, t, f) => .ok (pythonIf ws c t f)

/-- python_compatibility.py:93: start positions of `if(`. -/
def ifStarts (line : Text) : List ℕ := (List.range line.length).filter fun i => ifBeginning.isPrefixOf (line.drop i)

/-- python_compatibility.py:94-96. -/
def ifMatch (line : Text) (start : ℕ) : Except Err (ℕ × ℕ) := do
  let b ← findIfBoundaries (line.drop start)
  return (start, b.2)

/-- python_compatibility.py:99-100: the first element after a stable sort by the second component. -/
def firstShortest : List (ℕ × ℕ) → Option (ℕ × ℕ)
  | [] => none
  | p :: l =>
    match firstShortest l with
    | none => some p
    | some q => if q.2 < p.2 then some q else some p

/-- python_compatibility.py:101. -/
def replaceIfAt (ws : Char → Bool) (line : Text) (p : ℕ × ℕ) : Except Err Text := do
  let r ← replaceIfStatement ws ((line.drop p.1).take (p.2 + 1))
  return line.take p.1 ++ r ++ line.drop (p.1 + p.2 + 1)

/-- python_compatibility.py:90-101: one turn of the loop; `none` if the loop ends. -/
def ifTurn (ws : Char → Bool) (line : Text) : Except Err (Option Text) :=
  match mapE (ifMatch line) (ifStarts line) with
  | .error e => .error e
  | .ok ps =>
    match firstShortest ps with
    | none => .ok none
    | some p => (replaceIfAt ws line p).map some

/-- The loop with a bound on the number of turns (an `assertionError` if it is reached). -/
def ifLoop (ws : Char → Bool) : ℕ → Text → Except Err Text
  | 0, _ => .error .assertionError
  | n + 1, line =>
    match ifTurn ws line with
    | .error e => .error e
    | .ok none => .ok line
    | .ok (some line') => ifLoop ws n line'

/-- /repo/ocelot/transformations/parameterization/python_compatibility.py:85-116 `find_if_clause` and
`find_replace_nested_if_statements`. The loop has no bound in the code; that the bound here is never reached is
`C55_terminates`. -/
def rewriteIfs (ws : Char → Bool) (line : Text) : Except Err Text := ifLoop ws (line.count ';' + 1) line

/-! ## `power(a;b)` -/

/-- The text before the first bracket of `POWER_RE`, python_compatibility.py:40. -/
def powerBeginning : Text := ['p', 'o', 'w', 'e', 'r', '(']

/-- The greedy `[^;]+\)`: the text before the last closing parenthesis of `s`. -/
def beforeLastParen (s : Text) : Text := ((s.reverse.dropWhile fun c => c != ')').drop 1).reverse

/-- `POWER_RE` matched at the beginning of `s`: base and exponent. -/
def powerMatch (s : Text) : Option (Text × Text) :=
  if powerBeginning.isPrefixOf s then
    match splitSemicolon (s.drop 6) with
    | none => none
    | some (b, r) =>
      if b = [] ∨ beforeLastParen (r.takeWhile fun c => c != ';') = [] then none
      else some (b, beforeLastParen (r.takeWhile fun c => c != ';'))
  else none

/-- `POWER_RE.search`: the leftmost match. -/
def powerSearch : Text → Option (Text × Text)
  | [] => none
  | c :: s =>
    match powerMatch (c :: s) with
    | some m => some m
    | none => powerSearch s

/-- The matched text. -/
def powerText (m : Text × Text) : Text := powerBeginning ++ m.1 ++ [';'] ++ m.2 ++ [')']

/-- python_compatibility.py:123-124: `num x` is the text of `float(x)`, or `none` for a `ValueError`. -/
def powerReplacement (num : Text → Option Text) (m : Text × Text) : Except Err Text :=
  match num m.1, num m.2 with
  | some a, some b => .ok (['(', '('] ++ a ++ [')', '*', '*', '('] ++ b ++ [')', ')'])
  | _, _ => .error .valueError

/-- The loop of `find_power_clause` with a bound on the number of turns. -/
def powerLoop (num : Text → Option Text) : ℕ → Text → Except Err Text
  | 0, _ => .error .assertionError
  | n + 1, s =>
    match powerSearch s with
    | none => .ok s
    | some m => do
      let r ← powerReplacement num m
      powerLoop num n (replaceAll (powerText m) r s)

/-- /repo/ocelot/transformations/parameterization/python_compatibility.py:119-130 `find_power_clause`. -/
def rewritePowers (num : Text → Option Text) (s : Text) : Except Err Text := powerLoop num (s.count ';' + 1) s

/-! ## `fix_math_formulas` -/

/-- python_compatibility.py:139-145 with the substitutions of lines 16-21. -/
def mathSubstitutions (s : Text) : Text :=
  replaceAll ['\r', '\n'] [] (replaceAll ['^'] ['*', '*'] (replaceAll ['%'] ['e', '-', '2'] s))

/-- python_compatibility.py:139-147: one formula. -/
def fixMathFormula (ws : Char → Bool) (num : Text → Option Text) (s : Text) : Except Err Text := do
  let r ← rewriteIfs ws (mathSubstitutions s)
  rewritePowers num r

/-- Change the formula of an object, if it has one. -/
def onFormula (f : Text → Except Err Text) (o : NumObj) : Except Err NumObj :=
  match o.formula with
  | none => .ok o
  | some s => do
    let r ← f s.toList
    return { o with formula := some (String.ofList r) }

/-- /repo/ocelot/transformations/parameterization/python_compatibility.py:133-148 `fix_math_formulas` on one dataset. -/
def fixMathFormulas (ws : Char → Bool) (num : Text → Option Text) (ds : Dataset) : Except Err Dataset :=
  ds.mapNumE (onFormula (fixMathFormula ws num))

/-! ## Reserved words -/

/-- /repo/ocelot/transformations/parameterization/python_compatibility.py:23-28 `RESERVED_WORDS` (a set: the order in which
it is traversed is a parameter below). -/
def reservedWords : List String :=
  ["and", "as", "assert", "break", "class", "continue", "def", "del", "elif", "else", "except", "False", "finally", "for", "from", "global",
   "if", "import", "in", "is", "lambda", "None", "nonlocal", "not", "or", "pass", "raise", "return", "True", "try", "while", "with", "yield"]

/-- The character class `[a-zA-Z_]`. -/
def isWordChar (c : Char) : Bool := ('a' ≤ c ∧ c ≤ 'z') || ('A' ≤ c ∧ c ≤ 'Z') || c == '_'

/-- `word.upper()` for reserved words (ASCII letters). -/
def upperAscii (w : Text) : Text := w.map Char.toUpper

/-- `RESERVED_WORDS_STARTING`, python_compatibility.py:33-34, matched at the beginning. -/
def startsReserved (w s : Text) : Bool :=
  w.isPrefixOf s && ((s.drop w.length).head?.map fun c => !isWordChar c) == some true

/-- The end of a word: `($|[^a-zA-Z_])`. -/
def endsWord (s : Text) : Bool := (s.head?.map fun c => !isWordChar c).getD true

/-- `RESERVED_WORDS_RE`, python_compatibility.py:30-31, searched; `before` tells whether a word may start here. -/
def findsReserved (w : Text) : Bool → Text → Bool
  | before, [] => before && w.isEmpty
  | before, c :: s => (before && w.isPrefixOf (c :: s) && endsWord ((c :: s).drop w.length)) || findsReserved w (!isWordChar c) s

/-- python_compatibility.py:205-207: one word of the first loop. -/
def fixStarting (s : Text) (w : Text) : Text := if startsReserved w s then replaceAll w (upperAscii w) s else s

/-- python_compatibility.py:218-220: one word of the second loop. -/
def fixInside (s : Text) (w : Text) : Text := if findsReserved w true s then replaceAll w (upperAscii w) s else s

/-- /repo/ocelot/transformations/parameterization/python_compatibility.py:194-230 `check_and_fix_formula`. `words` are the
reserved words in the order of iteration; `parses` tells whether python can parse the text. -/
def checkAndFixFormula (words : List Text) (parses : Text → Bool) (s : Text) : Text :=
  let updated := words.foldl fixStarting s
  if parses updated then updated
  else if parses (words.foldl fixInside updated) then words.foldl fixInside updated else s

/-- python_compatibility.py:241-246: a variable that is a reserved word. -/
def fixVariable (v : String) : String := if v ∈ reservedWords then String.ofList (upperAscii v.toList) else v

/-- python_compatibility.py:240-248, body. -/
def fixReservedObj (words : List Text) (parses : Text → Bool) (o : NumObj) : NumObj :=
  { o with var := o.var.map fixVariable, formula := o.formula.map fun s => String.ofList (checkAndFixFormula words parses s.toList) }

/-- /repo/ocelot/transformations/parameterization/python_compatibility.py:233-249 `replace_reserved_words` on one dataset. -/
def replaceReservedWords (words : List Text) (parses : Text → Bool) (ds : Dataset) : Except Err Dataset :=
  ds.mapNumE fun o => .ok (fixReservedObj words parses o)

/-- python_compatibility.py:264-272, body. -/
def deleteUnparsableObj (parses : Text → Bool) (o : NumObj) : NumObj :=
  { o with formula := o.formula.filter fun s => parses s.toList }

/-- /repo/ocelot/transformations/parameterization/python_compatibility.py:257-273 `delete_unparsable_formulas` on one dataset. -/
def deleteUnparsableFormulas (parses : Text → Bool) (ds : Dataset) : Except Err Dataset :=
  ds.mapNumE fun o => .ok (deleteUnparsableObj parses o)

/-! ## Known bad formulas -/

/-- /repo/ocelot/transformations/parameterization/known_ecoinvent_issues.py:7-26 `KNOWN_SUBSTITUTIONS`. -/
def knownSubstitutions : List (String × String × String) :=
  [("thermoforming of plastic sheets", "1/014000000/50*0.946", "1.3514285714285711e-09"),
   ("benzene chlorination", "UnitConversion(152000000, 'pound avoirdupois', 'kg')", "68949040.24"),
   ("glued laminated timber production, for indoor use", "AVERAGE(3.08E04;4.00E04;3.39E04)*(AVERAGE(367561;433458;449963)/AVERAGE(1408383;1631979;1717500))", "9176.23"),
   ("cement production, alternative constituents 6-20%", "ABS(blast_furnace_slag/ cement* APV_cement)", "(abs(blast_furnace_slag / cement * apv_cement) if cement else 0)")]

/-- known_ecoinvent_issues.py:37-44, body of the inner loop. -/
def fixKnownObj (bad good : String) (o : NumObj) : NumObj :=
  { o with formula := o.formula.map fun s => String.ofList (replaceAll bad.toList good.toList s.toList) }

/-- known_ecoinvent_issues.py:34-44: one substitution. -/
def fixKnownStep (ds : Dataset) (sub : String × String × String) : Except Err Dataset :=
  if ds.name = sub.1 then ds.mapNumE fun o => .ok (fixKnownObj sub.2.1 sub.2.2 o) else .ok ds

/-- /repo/ocelot/transformations/parameterization/known_ecoinvent_issues.py:29-45 `fix_known_bad_formula_strings` on one dataset. -/
def fixKnownBadFormulas (ds : Dataset) : Except Err Dataset := foldE fixKnownStep ds knownSubstitutions

end Ocelot
