import Verif.Model.Formula

/-! # Specification vocabulary for parameters -/

namespace Ocelot.Spec

/-- The (nonempty) variable names of a dataset, with multiplicity: exchanges, production volumes,
properties, parameters. -/
def varNames (ds : Dataset) : List String :=
  (ds.numObjs.filterMap (·.var)).filter fun v => v != ""

/-- The named parameters of a dataset as triples. -/
def named (l : List NumObj) : List (String × ℚ × Option String) :=
  l.filterMap fun o => o.var.map fun v => (v, o.amount, o.formula)

/-- An expression has a value: the usual meaning of arithmetic, where `a < b` is one or zero and a condition holds unless it is zero. -/
inductive Evaluates (F : FormulaEnv) (σ : String → Option ℚ) : Expr → ℚ → Prop where
  | num (q : ℚ) : Evaluates F σ (.num q) q
  | var {n : String} {q : ℚ} : σ n = some q → Evaluates F σ (.var n) q
  | neg {a : Expr} {x : ℚ} : Evaluates F σ a x → Evaluates F σ (.neg a) (-x)
  | add {a b : Expr} {x y : ℚ} : Evaluates F σ a x → Evaluates F σ b y → Evaluates F σ (.add a b) (x + y)
  | sub {a b : Expr} {x y : ℚ} : Evaluates F σ a x → Evaluates F σ b y → Evaluates F σ (.sub a b) (x - y)
  | mul {a b : Expr} {x y : ℚ} : Evaluates F σ a x → Evaluates F σ b y → Evaluates F σ (.mul a b) (x * y)
  | div {a b : Expr} {x y : ℚ} : Evaluates F σ a x → Evaluates F σ b y → y ≠ 0 → Evaluates F σ (.div a b) (x / y)
  | less {a b : Expr} {x y : ℚ} : Evaluates F σ a x → Evaluates F σ b y → x < y → Evaluates F σ (.lt a b) 1
  | notLess {a b : Expr} {x y : ℚ} : Evaluates F σ a x → Evaluates F σ b y → ¬ x < y → Evaluates F σ (.lt a b) 0
  | yes {c a b : Expr} {x y : ℚ} : Evaluates F σ c x → x ≠ 0 → Evaluates F σ a y → Evaluates F σ (.cond c a b) y
  | no {c a b : Expr} {y : ℚ} : Evaluates F σ c 0 → Evaluates F σ b y → Evaluates F σ (.cond c a b) y
  | call1 {f : String} {a : Expr} {x y : ℚ} : Evaluates F σ a x → F.fn1 f x = .ok y → Evaluates F σ (.call1 f a) y
  | call2 {f : String} {a b : Expr} {x y z : ℚ} : Evaluates F σ a x → Evaluates F σ b y → F.fn2 f x y = .ok z → Evaluates F σ (.call2 f a b) z

/-- The first thing that goes wrong in an expression, from left to right, is a division by zero. -/
inductive DividesByZero (F : FormulaEnv) (σ : String → Option ℚ) : Expr → Prop where
  | div {a b : Expr} {x : ℚ} : Evaluates F σ a x → Evaluates F σ b 0 → DividesByZero F σ (.div a b)
  | call1 {f : String} {a : Expr} {x : ℚ} : Evaluates F σ a x → F.fn1 f x = .error .zeroDivision → DividesByZero F σ (.call1 f a)
  | call2 {f : String} {a b : Expr} {x y : ℚ} : Evaluates F σ a x → Evaluates F σ b y → F.fn2 f x y = .error .zeroDivision → DividesByZero F σ (.call2 f a b)
  | inNeg {a : Expr} : DividesByZero F σ a → DividesByZero F σ (.neg a)
  | inAdd₁ {a b : Expr} : DividesByZero F σ a → DividesByZero F σ (.add a b)
  | inAdd₂ {a b : Expr} {x : ℚ} : Evaluates F σ a x → DividesByZero F σ b → DividesByZero F σ (.add a b)
  | inSub₁ {a b : Expr} : DividesByZero F σ a → DividesByZero F σ (.sub a b)
  | inSub₂ {a b : Expr} {x : ℚ} : Evaluates F σ a x → DividesByZero F σ b → DividesByZero F σ (.sub a b)
  | inMul₁ {a b : Expr} : DividesByZero F σ a → DividesByZero F σ (.mul a b)
  | inMul₂ {a b : Expr} {x : ℚ} : Evaluates F σ a x → DividesByZero F σ b → DividesByZero F σ (.mul a b)
  | inDiv₁ {a b : Expr} : DividesByZero F σ a → DividesByZero F σ (.div a b)
  | inDiv₂ {a b : Expr} {x : ℚ} : Evaluates F σ a x → DividesByZero F σ b → DividesByZero F σ (.div a b)
  | inLt₁ {a b : Expr} : DividesByZero F σ a → DividesByZero F σ (.lt a b)
  | inLt₂ {a b : Expr} {x : ℚ} : Evaluates F σ a x → DividesByZero F σ b → DividesByZero F σ (.lt a b)
  | inCond {c a b : Expr} : DividesByZero F σ c → DividesByZero F σ (.cond c a b)
  | inYes {c a b : Expr} {x : ℚ} : Evaluates F σ c x → x ≠ 0 → DividesByZero F σ a → DividesByZero F σ (.cond c a b)
  | inNo {c a b : Expr} : Evaluates F σ c 0 → DividesByZero F σ b → DividesByZero F σ (.cond c a b)
  | inCall1 {f : String} {a : Expr} : DividesByZero F σ a → DividesByZero F σ (.call1 f a)
  | inCall2₁ {f : String} {a b : Expr} : DividesByZero F σ a → DividesByZero F σ (.call2 f a b)
  | inCall2₂ {f : String} {a b : Expr} {x : ℚ} : Evaluates F σ a x → DividesByZero F σ b → DividesByZero F σ (.call2 f a b)

/-- `s` has value `q` when names mean `σ`; a division by zero counts as zero. -/
def FormulaValue (F : FormulaEnv) (σ : String → Option ℚ) (s : String) (q : ℚ) : Prop :=
  ∃ e, F.parse s = some e ∧ (Evaluates F σ e q ∨ (DividesByZero F σ e ∧ q = 0))

/-- An admissible evaluation order for a dataset: every variable name once, and the formula of a
variable mentions no variable that comes at the same place or later. -/
structure AdmissibleOrder (F : FormulaEnv) (ds : Dataset) (order : List String) : Prop where
  nodup : order.Nodup
  complete : ∀ v, v ∈ order ↔ ∃ o ∈ ds.numObjs, o.var = some v
  respects : ∀ pre v post, order = pre ++ v :: post → ∀ o ∈ ds.numObjs, o.var = some v →
    ∀ f e, o.formula = some f → F.parse f = some e → ∀ n ∈ e.names, n ∉ v :: post

end Ocelot.Spec
