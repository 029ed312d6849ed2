import Verif.Model.Params

/-!
# Formulas and recalculation

`asteval` evaluates Python expressions and `bw2parameters.ParameterSet` finds an order in which the named
parameters can be evaluated; neither is part of /repo.  The model has expression trees with a structural
evaluator; the text parser is an oracle, and the evaluation order is an arbitrary admissible one.
-/

namespace Ocelot

/-- Why an evaluation has no value. `zeroDivision` is Python's `ZeroDivisionError`; everything else
(unknown name, domain error, ...) is `other`. -/
inductive EvalErr where
  | zeroDivision | other
  deriving DecidableEq, Repr

/-- Expression trees: numbers, names, arithmetic, comparison, conditional expression, library functions
with one and two arguments. -/
inductive Expr where
  | num (q : ℚ)
  | var (n : String)
  | neg (a : Expr)
  | add (a b : Expr)
  | sub (a b : Expr)
  | mul (a b : Expr)
  | div (a b : Expr)
  | lt (a b : Expr)
  | cond (c a b : Expr)
  | call1 (f : String) (a : Expr)
  | call2 (f : String) (a b : Expr)
  deriving DecidableEq, Repr

/-- What `asteval` provides: a parser, library functions (including power), predefined names. -/
structure FormulaEnv where
  parse : String → Option Expr
  fn1 : String → ℚ → Except EvalErr ℚ
  fn2 : String → ℚ → ℚ → Except EvalErr ℚ
  base : String → Option ℚ

/-- The names used in an expression: `get_ast_names`,
/repo/ocelot/transformations/parameterization/python_compatibility.py:184-191, and
`bw2parameters`' `get_symbols`. -/
def Expr.names : Expr → List String
  | .num _ => []
  | .var n => [n]
  | .neg a => a.names
  | .add a b => a.names ++ b.names
  | .sub a b => a.names ++ b.names
  | .mul a b => a.names ++ b.names
  | .div a b => a.names ++ b.names
  | .lt a b => a.names ++ b.names
  | .cond c a b => c.names ++ a.names ++ b.names
  | .call1 _ a => a.names
  | .call2 _ a b => a.names ++ b.names

/-- Evaluation in a symbol table. Only the selected branch of a conditional is evaluated. -/
def Expr.eval (F : FormulaEnv) (σ : String → Option ℚ) : Expr → Except EvalErr ℚ
  | .num q => .ok q
  | .var n => match σ n with
    | some q => .ok q
    | none => .error .other
  | .neg a => do let x ← a.eval F σ; return -x
  | .add a b => do let x ← a.eval F σ; let y ← b.eval F σ; return x + y
  | .sub a b => do let x ← a.eval F σ; let y ← b.eval F σ; return x - y
  | .mul a b => do let x ← a.eval F σ; let y ← b.eval F σ; return x * y
  | .div a b => do
    let x ← a.eval F σ
    let y ← b.eval F σ
    if y = 0 then throw .zeroDivision else return x / y
  | .lt a b => do let x ← a.eval F σ; let y ← b.eval F σ; return if x < y then 1 else 0
  | .cond c a b => do
    let x ← c.eval F σ
    if x ≠ 0 then a.eval F σ else b.eval F σ
  | .call1 f a => do let x ← a.eval F σ; F.fn1 f x
  | .call2 f a b => do let x ← a.eval F σ; let y ← b.eval F σ; F.fn2 f x y

/-- `try: value = interpreter(formula) except ZeroDivisionError: value = 0`,
/repo/ocelot/transformations/parameterization/recalculation.py:38-43 and 69-72. A formula that cannot be
parsed or evaluated makes `asteval` report an error: `.error .parameterError`. -/
def tolerantEval (F : FormulaEnv) (σ : String → Option ℚ) (s : String) : Except Err ℚ :=
  match F.parse s with
  | none => .error .parameterError
  | some e =>
    match e.eval F σ with
    | .ok q => .ok q
    | .error .zeroDivision => .ok 0
    | .error .other => .error .parameterError

/-- A named parameter: value and formula. -/
abbrev NamedParam := ℚ × Option String

/-- /repo/ocelot/transformations/parameterization/recalculation.py:13-25 `extract_named_parameters`: a
dictionary, so the last object with a given variable wins. -/
def extractNamedParameters (ds : Dataset) : List (String × NamedParam) :=
  dictOf (fun o : NumObj => o.var.getD "") (fun o => (o.amount, o.formula))
    (ds.numObjs.filter fun o => o.var.isSome)

/-- Symbol table update `interpreter.symtable[key] = value`. -/
def symSet (σ : String → Option ℚ) (k : String) (v : ℚ) : String → Option ℚ :=
  fun n => if n = k then some v else σ n

/-- The value of one named parameter, recalculation.py:37-48. An empty formula counts as no formula
(`.get('formula')`). -/
def paramValue (F : FormulaEnv) (σ : String → Option ℚ) (p : NamedParam) : Except Err ℚ :=
  match p.2 with
  | none => .ok p.1
  | some f => if f = "" then .ok p.1 else tolerantEval F σ f

/-- /repo/ocelot/transformations/parameterization/recalculation.py:30-49 `TolerantParameterSet.evaluate`:
evaluates the parameters in the given order, extending the symbol table. -/
def evaluateParams (F : FormulaEnv) (params : List (String × NamedParam)) :
    List String → (String → Option ℚ) → Except Err (String → Option ℚ)
  | [], σ => .ok σ
  | k :: rest, σ =>
    match params.lookup k with
    | none => .error .keyError
    | some p => do
      let v ← paramValue F σ p
      evaluateParams F params rest (symSet σ k v)

/-- recalculation.py:67-76, body of the loop: the object gets its new amount. -/
def recalcObj (F : FormulaEnv) (σ : String → Option ℚ) (o : NumObj) : Except Err NumObj :=
  match o.formula with
  | some f => do
    let v ← tolerantEval F σ f
    return { o with amount := v }
  | none =>
    match o.var with
    | some v =>
      match σ v with
      | some q => .ok { o with amount := q }
      | none => .error .keyError
    | none => .ok o

/-- /repo/ocelot/transformations/parameterization/recalculation.py:52-83 `recalculate`. `order` is the
evaluation order found by the library; see `AdmissibleOrder`. -/
def recalculate (M : MathEnv) (F : FormulaEnv) (order : List String) (ds : Dataset) :
    Except Err Dataset := do
  let σ ← evaluateParams F (extractNamedParameters ds) order F.base
  let ds' ← ds.mapNumE (recalcObj F σ)
  ds'.mapNumE (repair M)

end Ocelot
