import Verif.Model.Basic

/-!
The Python functions that verse/analysis/parsed_wrap analyses, and what Python computes for them: numeric
expressions, conditions with chained comparisons, `if` statements, assignments and `return`. A value is
an element of an ordered field; `none` means that Python raises an exception (unknown name, division by
zero, exception in a called function).
-/

set_option autoImplicit false

namespace Verif.Spec

/-- Expressions. Calls have one or two arguments. -/
inductive PE (K : Type) where
  | name (x : String)
  | const (c : K)
  | neg (a : PE K)
  | pos (a : PE K)
  | add (a b : PE K)
  | sub (a b : PE K)
  | mul (a b : PE K)
  | div (a b : PE K)
  | call1 (f : String) (a : PE K)
  | call2 (f : String) (a b : PE K)
  deriving DecidableEq

inductive CmpOp where
  | gt | ge | lt | le | eq | ne
  deriving DecidableEq

/-- Conditions. A comparison has one or more operators, as in `a <= x < b`; `and` and `or` with more than
two operands are nested. -/
inductive PC (K : Type) where
  | cmp (left : PE K) (ops : List (CmpOp × PE K))
  | and (a b : PC K)
  | or (a b : PC K)
  | not (a : PC K)
  | other
  deriving DecidableEq

/-- Statements; `skip` stands for a docstring or another statement without effect. -/
inductive PS (K : Type) where
  | assign (x : String) (e : PE K)
  | ret (e : PE K)
  | ifS (c : PC K) (body orelse : List (PS K))
  | skip

structure PFun (K : Type) where
  name : String
  params : List String
  body : List (PS K)

/-- The functions that can be called. -/
structure Funs (K : Type) where
  f1 : String → K → Option K
  f2 : String → K → K → Option K

variable {K : Type} [Field K] [LinearOrder K]

abbrev Env (K : Type) := Dict String K

def evalE (F : Funs K) (env : Env K) : PE K → Option K
  | .name x => Dict.get? env x
  | .const c => some c
  | .neg a => (evalE F env a).map fun v => -v
  | .pos a => evalE F env a
  | .add a b => (evalE F env a).bind fun v => (evalE F env b).map fun w => v + w
  | .sub a b => (evalE F env a).bind fun v => (evalE F env b).map fun w => v - w
  | .mul a b => (evalE F env a).bind fun v => (evalE F env b).map fun w => v * w
  | .div a b => (evalE F env a).bind fun v => (evalE F env b).bind fun w => if w = 0 then none else some (v / w)
  | .call1 f a => (evalE F env a).bind fun v => F.f1 f v
  | .call2 f a b => (evalE F env a).bind fun v => (evalE F env b).bind fun w => F.f2 f v w

def CmpOp.test : CmpOp → K → K → Bool
  | .gt, a, b => decide (a > b)
  | .ge, a, b => decide (a ≥ b)
  | .lt, a, b => decide (a < b)
  | .le, a, b => decide (a ≤ b)
  | .eq, a, b => decide (a = b)
  | .ne, a, b => decide (a ≠ b)

/-- `a op1 b op2 c` is `a op1 b and b op2 c`. -/
def evalChain (F : Funs K) (env : Env K) (v : K) : List (CmpOp × PE K) → Option Bool
  | [] => some true
  | (op, e) :: rest => (evalE F env e).bind fun w => if op.test v w then evalChain F env w rest else some false

def evalC (F : Funs K) (env : Env K) : PC K → Option Bool
  | .cmp l ops => (evalE F env l).bind fun v => evalChain F env v ops
  | .and a b => (evalC F env a).bind fun x => if x then evalC F env b else some false
  | .or a b => (evalC F env a).bind fun x => if x then some true else evalC F env b
  | .not a => (evalC F env a).map fun x => !x
  | .other => none

mutual
/-- A statement either returns a value or goes on with new values of the variables. -/
def exec (F : Funs K) (env : Env K) : PS K → Option (K ⊕ Env K)
  | .assign x e => (evalE F env e).map fun v => .inr (Dict.set env x v)
  | .ret e => (evalE F env e).map .inl
  | .ifS c body orelse => (evalC F env c).bind fun b => if b then execL F env body else execL F env orelse
  | .skip => some (.inr env)

def execL (F : Funs K) (env : Env K) : List (PS K) → Option (K ⊕ Env K)
  | [] => some (.inr env)
  | s :: rest => (exec F env s).bind fun r => match r with
    | .inl v => some (.inl v)
    | .inr env' => execL F env' rest
end

/-- The value of a call; `none` also when the number of arguments is wrong and when the function ends without `return`. -/
def callFn (F : Funs K) (f : PFun K) (args : List K) : Option K :=
  if args.length ≠ f.params.length then none else (execL F (f.params.zip args) f.body).bind fun r => match r with
    | .inl v => some v
    | .inr _ => none

end Verif.Spec
