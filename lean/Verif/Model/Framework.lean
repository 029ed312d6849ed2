import Verif.Model.ActivityLinks

/-!
# The framework: collections, wrappers, save strategies, model runs, reports

Models /repo/ocelot/collection.py, wrapper.py, results.py, utils.py, model.py, logger.py and the part of report.py that reads a log.

A transformation function changes its data in place and returns it; here it is a function from the data before to the data after.
The HTML page itself, pickling and file names are not modelled.
-/

namespace Ocelot

/-! ## Collections -/

/-- What can be put in a collection or configuration: a callable that is not iterable, a `Collection`, or a plain list or tuple.
`wrapt.FunctionWrapper` objects are iterable but are treated as callables by all code here. -/
inductive FnItem (F : Type) where
  | fn (f : F)
  | coll (items : List (FnItem F))
  | seq (items : List (FnItem F))

mutual
/-- /repo/ocelot/collection.py:60-68 `unwrapper`, one element. -/
def FnItem.unwrap {F : Type} : FnItem F → List F
  | .fn f => [f]
  | .coll l => unwrapAll l
  | .seq l => unwrapAll l
/-- /repo/ocelot/collection.py:58-70 `unwrap_functions`. -/
def unwrapAll {F : Type} : List (FnItem F) → List F
  | [] => []
  | a :: l => a.unwrap ++ unwrapAll l
end

/-- A `Collection` object; its name plays no role. -/
structure Coll (F : Type) where
  functions : List (FnItem F)

/-- /repo/ocelot/collection.py:14-20 `__init__` and `unwrap`. -/
def Coll.new {F : Type} (items : List (FnItem F)) : Coll F := ⟨(unwrapAll items).map .fn⟩

mutual
/-- Calling an element: a plain list is not callable. -/
def FnItem.call {F D : Type} (run : F → D → Except Err D) : FnItem F → D → Except Err D
  | .fn f, d => run f d
  | .coll l, d => callAll run l d
  | .seq _, _ => .error .typeError
/-- /repo/ocelot/collection.py:47-50 `__call__`. -/
def callAll {F D : Type} (run : F → D → Except Err D) : List (FnItem F) → D → Except Err D
  | [], d => .ok d
  | a :: l, d => do
    let d' ← a.call run d
    callAll run l d'
end

/-- /repo/ocelot/collection.py:47-50 `__call__`. -/
def Coll.call {F D : Type} (run : F → D → Except Err D) (c : Coll F) (d : D) : Except Err D := callAll run c.functions d

/-- The position a slice bound means in a list of length `n`. -/
def slicePos (n : ℕ) (i : ℤ) : ℕ := if i < 0 then (i + n).toNat else min i.toNat n

/-- The position an index means in a list of length `n`. -/
def indexPos (n : ℕ) (i : ℤ) : Except Err ℕ :=
  if 0 ≤ i ∧ i < n then .ok i.toNat
  else if -n ≤ i ∧ i < 0 then .ok (i + n).toNat
  else .error .indexError

/-- /repo/ocelot/collection.py:37-38 `insert`. -/
def Coll.insert {F : Type} (i : ℤ) (x : FnItem F) (c : Coll F) : Coll F :=
  ⟨c.functions.take (slicePos c.functions.length i) ++ [x] ++ c.functions.drop (slicePos c.functions.length i)⟩

/-- /repo/ocelot/collection.py:34-35 `__setitem__` -/
def Coll.setItem {F : Type} (i : ℤ) (x : FnItem F) (c : Coll F) : Except Err (Coll F) := do
  let k ← indexPos c.functions.length i
  return ⟨c.functions.set k x⟩

/-- /repo/ocelot/collection.py:40-41 `__delitem__` -/
def Coll.delItem {F : Type} (i : ℤ) (c : Coll F) : Except Err (Coll F) := do
  let k ← indexPos c.functions.length i
  return ⟨c.functions.eraseIdx k⟩

/-! ## TransformationWrapper -/

/-- /repo/ocelot/wrapper.py:27-32 `TransformationWrapper.__call__` with a filter. -/
def wrapFiltered {α : Type} (filter : α → Except Err Bool) (f : α → Except Err (List α)) (data : List α) : Except Err (List α) :=
  flatMapE (fun ds => do
    let b ← filter ds
    if b then f ds else .ok [ds]) data

/-- /repo/ocelot/wrapper.py:32 without a filter. -/
def wrapAll {α : Type} (f : α → Except Err (List α)) (data : List α) : Except Err (List α) := flatMapE f data

/-! ## Save strategies -/

/-- The argument of `SaveStrategy`. -/
inductive SaveArg where
  | none
  | int (n : ℤ)
  | text (s : List Char)

/-- `str.split(":")` -/
def splitColon : List Char → List (List Char)
  | [] => [[]]
  | c :: s =>
    if c = ':' then [] :: splitColon s
    else match splitColon s with
      | [] => [[c]]
      | w :: ws => (c :: w) :: ws

/-- `list(range(a, b, c))` for `c ≠ 0`. -/
def pyRange (a b c : ℤ) : List ℤ :=
  if 0 < c then (List.range ((b - a + c - 1) / c).toNat).map fun i : ℕ => a + (i : ℤ) * c
  else (List.range ((a - b - c - 1) / (-c)).toNat).map fun i : ℕ => a + (i : ℤ) * c

/-- /repo/ocelot/results.py:31 `DEFAULT` -/
def saveDefault : ℕ := 1000

/-- results.py:43-49 `a`. -/
def everyNth (n : ℤ) : Except Err (ℕ → Bool) :=
  if n < 1 then .error .valueError else .ok fun x => decide ((x : ℤ) % n = 0)

/-- results.py:51-57 `a:b` or `a:b:c`; other numbers of arguments are a `TypeError` of `range`, a zero step is a `ValueError`. -/
def fromRange (l : List ℤ) : Except Err (ℕ → Bool) :=
  match l with
  | [a, b] => .ok fun x => decide ((x : ℤ) ∈ pyRange a (b + 1) 1)
  | [a, b, c] => if c = 0 then .error .valueError else .ok fun x => decide ((x : ℤ) ∈ pyRange a (b + 1) c)
  | _ => .error .typeError

/-- /repo/ocelot/results.py:39-57 `SaveStrategy.parse`; `int` is python's `int(text)`, `none` for a `ValueError`. -/
def saveStrategy (int : List Char → Option ℤ) : SaveArg → Except Err (ℕ → Bool)
  | .none => .ok fun x => decide (x % saveDefault = 0)
  | .int n => everyNth n
  | .text s =>
    if ':' ∈ s then
      match (splitColon s).mapM int with
      | none => .error .valueError
      | some l => fromRange l
    else
      match int s with
      | none => .error .valueError
      | some n => everyNth n

/-! ## Model runs -/

/-- What a transformation function sends to the log while it runs: an element of its table or of its list. -/
structure Entry where
  isTable : Bool
  data : List String
  deriving DecidableEq, Repr

/-- Why a run stops: an exception or a keyboard interrupt. -/
inductive Stop where
  | raised (e : Err)
  | interrupted
  deriving DecidableEq, Repr

/-- A transformation function: the name and table found by `get_function_meta` (`none`: an object without `__name__`),
and its effect: log entries and either the new data or the reason to stop. -/
structure Fn (α : Type) where
  name : Option String
  table : Bool
  run : List α → List Entry × Except Stop (List α)

/-- Log records, /repo/ocelot/model.py:45-50, 54-57, 117-121, 133. The time that /repo/ocelot/logger.py:13 adds comes in when the log is read. -/
inductive Record where
  | reportStart (uuid : String) (count : ℕ)
  | reportEnd
  | functionStart (index : ℕ) (name : String) (table : Bool) (count : ℕ)
  | functionEnd (index : ℕ) (name : String) (table : Bool) (count : ℕ)
  | entry (e : Entry)
  deriving DecidableEq, Repr

/-- A pickled intermediate result: number (`none` for the final result), function name, data. -/
structure Saved (α : Type) where
  index : Option ℕ
  name : Option String
  data : List α
  deriving DecidableEq, Repr

/-- The state of a run: the counter, the log, the files written. -/
structure Run (α : Type) where
  index : ℕ
  log : List Record
  saved : List (Saved α)
  followed : List (ℕ × List α)
  deriving DecidableEq, Repr

/-- What a run was asked to do: the save strategy and the test of the followed datasets (`none`: nothing followed). -/
structure Settings (α : Type) where
  save : ℕ → Bool
  follow : Option (α → Bool)

/-- model.py:59-60 -/
def saveStep {α : Type} (cfg : Settings α) (i : ℕ) (name : String) (d : List α) : List (Saved α) :=
  if cfg.save i then [⟨some i, some name, d⟩] else []

/-- model.py:62-64 and /repo/ocelot/filesystem.py:156-172 `save_specific_dataset` -/
def followStep {α : Type} (cfg : Settings α) (i : ℕ) (d : List α) : List (ℕ × List α) :=
  match cfg.follow with
  | none => []
  | some t => if d.filter t = [] then [] else [(i, d.filter t)]

/-- /repo/ocelot/model.py:42-67 `apply_transformation` for a single function. -/
def applyLeaf {α : Type} (cfg : Settings α) (s : Run α) (d : List α) (f : Fn α) : Run α × Except Stop (List α) :=
  match f.name with
  | none => (s, .error (.raised .attributeError))
  | some name =>
    let started := s.log ++ [.functionStart s.index name f.table d.length] ++ (f.run d).1.map .entry
    match (f.run d).2 with
    | .error stop => ({ s with index := s.index + 1, log := started }, .error stop)
    | .ok d' => ({ index := s.index + 1, log := started ++ [.functionEnd s.index name f.table d'.length], saved := s.saved ++ saveStep cfg s.index name d', followed := s.followed ++ followStep cfg s.index d' }, .ok d')

/-- /repo/ocelot/model.py:34-41 `apply_transformation`: for an iterable the recursive call lacks the argument `follow`, a `TypeError`. -/
def applyItem {α : Type} (cfg : Settings α) (s : Run α) (d : List α) : FnItem (Fn α) → Run α × Except Stop (List α)
  | .fn f => applyLeaf cfg s d f
  | .coll [] => (s, .ok d)
  | .seq [] => (s, .ok d)
  | .coll (_ :: _) => (s, .error (.raised .typeError))
  | .seq (_ :: _) => (s, .error (.raised .typeError))

/-- /repo/ocelot/model.py:125-128 -/
def applyItems {α : Type} (cfg : Settings α) (s : Run α) (d : List α) : List (FnItem (Fn α)) → Run α × Except Stop (List α)
  | [] => (s, .ok d)
  | a :: l =>
    match applyItem cfg s d a with
    | (s', .error stop) => (s', .error stop)
    | (s', .ok d') => applyItems cfg s' d' l

/-- /repo/ocelot/utils.py:8-20 `get_function_meta` succeeds. -/
def FnItem.hasMeta {α : Type} : FnItem (Fn α) → Bool
  | .fn f => f.name.isSome
  | _ => false

/-- /repo/ocelot/utils.py:23-34 `validate_configuration`: the elements of the configuration, if it is accepted. -/
def validateConfiguration {α : Type} : FnItem (Fn α) → Except Err (List (FnItem (Fn α)))
  | .fn _ => .error .typeError
  | .coll l => if l.all FnItem.hasMeta then .ok l else .error .invalidTransformationFunction
  | .seq l => if (Coll.new l).functions.all FnItem.hasMeta then .ok l else .error .invalidTransformationFunction

/-! ## Reports -/

/-- `tabledata` or `listdata` -/
structure Rows where
  isTable : Bool
  rows : List (List String)
  deriving DecidableEq, Repr

/-- The entries added at the end of a function, report.py:102-112. -/
structure FnEnd where
  time : ℚ
  finish : ℚ
  count : ℕ
  name : String
  table : Bool
  deriving DecidableEq, Repr

/-- One value of `data['functions']`. -/
structure FnReport where
  start : ℚ
  rows : Rows
  fin : Option FnEnd
  deriving DecidableEq, Repr

/-- The dictionary `data` and `self.index` while a log is read. -/
structure RepState where
  counts : Option (List (String × ℕ)) := none
  times : Option (List (String × ℚ)) := none
  functions : List (ℕ × FnReport) := []
  index : Option ℕ := none
  deriving DecidableEq, Repr

/-- `data['functions'][self.index]` -/
def RepState.current (s : RepState) : Except Err (ℕ × FnReport) :=
  match s.index with
  | none => .error .attributeError
  | some i =>
    match s.functions.lookup i with
    | none => .error .keyError
    | some f => .ok (i, f)

/-- Add a row of the given kind, report.py:113-116. -/
def FnReport.addRow (e : Entry) (f : FnReport) : Except Err FnReport :=
  if f.rows.isTable = e.isTable then .ok { f with rows := { f.rows with rows := f.rows.rows ++ [e.data] } } else .error .keyError

/-- /repo/ocelot/report.py:83-116 `handle_line` -/
def handleLine (s : RepState) (line : ℚ × Record) : Except Err RepState :=
  match line.2 with
  | .reportStart _ count => .ok { s with counts := some [("Start", count)], times := some [("Start", line.1)] }
  | .reportEnd => do
    let ts ← getKey s.times
    return { s with times := some (ts ++ [("End", line.1)]) }
  | .functionStart i _ table _ => .ok { s with index := some i, functions := dictSet i ⟨line.1, ⟨table, []⟩, none⟩ s.functions }
  | .functionEnd _ name table count => do
    let cs ← getKey s.counts
    let ts ← getKey s.times
    let p ← s.current
    return { s with counts := some (cs ++ [(name, count)]), times := some (ts ++ [(name, line.1)]), functions := dictSet p.1 { p.2 with fin := some ⟨line.1 - p.2.start, line.1, count, name, table⟩ } s.functions }
  | .entry e => do
    let p ← s.current
    let f ← p.2.addRow e
    return { s with functions := dictSet p.1 f s.functions }

/-- The data handed to the page template. -/
structure Report where
  elapsed : ℚ
  counts : List ℕ
  times : List ℚ
  functions : List (ℕ × FnReport)
  deriving DecidableEq, Repr

/-- `functions.sort(key=index)`, report.py:33-35 -/
def sortFunctions (l : List (ℕ × FnReport)) : List (ℕ × FnReport) := l.mergeSort fun a b => decide (a.1 ≤ b.1)

/-- /repo/ocelot/report.py:61-67 `read_log` and 21-36 `jsonize`. The test `hasattr(v, "tabledata")` is false for every dictionary, so that rows are
neither sorted nor turned to text. -/
def readLog (lines : List (ℚ × Record)) : Except Err Report := do
  let s ← foldE handleLine {} lines
  let ts ← getKey s.times
  let cs ← getKey s.counts
  let first ← getKey ts.head?
  let last ← getKey ts.getLast?
  return { elapsed := last.2 - first.2, counts := cs.map (·.2), times := ts.map (fun p => p.2 - first.2), functions := sortFunctions s.functions }

/-- The lines of a log file: the `n`-th record gets the time `clock n`, /repo/ocelot/logger.py:9-14. -/
def stamped (clock : ℕ → ℚ) (log : List Record) : List (ℚ × Record) := log.zipIdx.map fun p => (clock p.2, p.1)

/-! ## The whole run -/

/-- The argument `config` of `system_model`. -/
inductive Config (α : Type) where
  | none
  | text (s : String)
  | item (i : FnItem (Fn α))

/-- Everything outside the run that it depends on: named configurations (their names and contents), the default, the run's uuid, the clock. -/
structure Setup (α : Type) where
  mapping : String → Option (FnItem (Fn α))
  default : FnItem (Fn α)
  uuid : String
  clock : ℕ → ℚ

/-- A configuration is false in python if it is empty. -/
def FnItem.isEmpty {F : Type} : FnItem F → Bool
  | .fn _ => false
  | .coll l => l.isEmpty
  | .seq l => l.isEmpty

/-- /repo/ocelot/model.py:103-106. A text that names no configuration sends `unwrap_functions` into endless recursion over its characters (a
`RecursionError`, modelled as `invalidTransformationFunction`); the empty text means the default. -/
def chooseConfig {α : Type} (S : Setup α) : Config α → Except Err (FnItem (Fn α))
  | .none => .ok S.default
  | .text s =>
    match S.mapping s with
    | some c => .ok c
    | none => if s = "" then .ok S.default else .error .invalidTransformationFunction
  | .item i => .ok (if i.isEmpty then S.default else i)

/-- What a run leaves behind: the files in its output directory (`none`: no directory), and what it returns. -/
structure Outcome (α : Type) where
  files : Option (Run α)
  report : Option Report
  result : Except Stop (List α)

/-- model.py:130-137: the end of a run whose functions all succeeded. -/
def finishRun {α : Type} (S : Setup α) (s : Run α) (d : List α) : Outcome α :=
  let s' : Run α := { s with log := s.log ++ [.reportEnd], saved := s.saved ++ [⟨none, none, d⟩] }
  match readLog (stamped S.clock s'.log) with
  | .error e => ⟨some s', none, .error (.raised e)⟩
  | .ok r => ⟨some s', some r, .ok d⟩

/-- model.py:125-143: the functions, and what happens when they stop. -/
def runItems {α : Type} (S : Setup α) (cfg : Settings α) (items : List (FnItem (Fn α))) (d : List α) : Outcome α :=
  match applyItems cfg ⟨0, [.reportStart S.uuid d.length], [], []⟩ d items with
  | (_, .error .interrupted) => ⟨none, none, .error .interrupted⟩
  | (s, .error (.raised e)) => ⟨some s, none, .error (.raised e)⟩
  | (s, .ok d') => finishRun S s d'

/-- /repo/ocelot/model.py:70-143 `system_model`; `extracted` is the outcome of `extract_directory`, `strategy` of `SaveStrategy(save_strategy)`. -/
def systemModel {α : Type} (S : Setup α) (config : Config α) (extracted : Except Err (List α)) (strategy : Except Err (ℕ → Bool)) (follow : Option (α → Bool)) :
    Outcome α :=
  match chooseConfig S config with
  | .error e => ⟨none, none, .error (.raised e)⟩
  | .ok c =>
    match validateConfiguration c with
    | .error e => ⟨none, none, .error (.raised e)⟩
    | .ok items =>
      match extracted with
      | .error e => ⟨none, none, .error (.raised e)⟩
      | .ok d =>
        match strategy with
        | .error e => ⟨some ⟨0, [.reportStart S.uuid d.length], [], []⟩, none, .error (.raised e)⟩
        | .ok save => runItems S ⟨save, follow⟩ items d

/-! ## Log files of several runs in one process -/

/-- /repo/ocelot/logger.py:43-52 `create_log` adds a file to the handlers of the logger, and nothing removes it. The files, in the order of creation, after
runs that logged the given records. -/
def logFiles (files : List (List Record)) : List (List Record) → List (List Record)
  | [] => files
  | r :: runs => logFiles ((files ++ [[]]).map fun f => f ++ r) runs

end Ocelot
