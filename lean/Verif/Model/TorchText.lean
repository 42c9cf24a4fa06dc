import Verif.Model.SensorParser
import Verif.Model.Basic

/-!
verse/analysis/parsed_wrap/sensor_parser.py 17-24 and 125-192: how the source text of a sensor becomes a function on tensors.

Simplifications
* functions are sequences of assignments and a `return`; expressions are numbers, names, attributes, `-`, `+`, `-`, `*`, `/`, powers with a number as exponent,
  calls with positional arguments, lists and tuples of numbers (one kind of value); methods of tensors are not modelled;
* a tensor is a number with a mark that tells it from a Python number (all tensors have one element); numbers are real numbers;
* a division by zero is an exception (for tensors the result is infinite or no number);
* of the functions of torch, numpy and the built-in ones, those in `libPrim` are modelled.
-/

set_option autoImplicit false

namespace Verif.Torch

/-- `ast.Add`, `ast.Sub`, `ast.Mult`, `ast.Div` -/
inductive Op where
  | add
  | sub
  | mul
  | div

mutual
/-- Expressions of Python. -/
inductive Expr where
  | num (x : ℝ)
  | name (n : String)
  | attr (e : Expr) (a : String)
  | neg (e : Expr)
  | bin (op : Op) (l r : Expr)
  | pow (e : Expr) (n : Nat)
  | call (f : Expr) (args : Exprs)
  | seq (es : Exprs)
/-- Lists of expressions. -/
inductive Exprs where
  | nil
  | cons (e : Expr) (es : Exprs)
end

/-- `def name(params): …`: the assignments with their targets, and what is returned. -/
structure Fn where
  name : String
  params : List String
  body : List (Expr × Expr)
  ret : Expr

/-- `FUNC_MAP`, sensor_parser.py 17-24; the texts are parsed in line 156. -/
def funcMap (n : String) : Option Expr :=
  if n = "sin" then some (.attr (.name "torch") "sin")
  else if n = "cos" then some (.attr (.name "torch") "cos")
  else if n = "atan2" then some (.name "atan2_crown_safe")
  else if n = "norm" then some (.name "norm")
  else none

mutual
/-- `TorchTransformer`, sensor_parser.py 151-159: every name in `FUNC_MAP` is replaced, wherever it stands. -/
def transform : Expr → Expr
  | .num x => .num x
  | .name n => (funcMap n).getD (.name n)
  | .attr e a => .attr (transform e) a
  | .neg e => .neg (transform e)
  | .bin op l r => .bin op (transform l) (transform r)
  | .pow e n => .pow (transform e) n
  | .call f args => .call (transform f) (transforms args)
  | .seq es => .seq (transforms es)
/-- The same for the elements of a list. -/
def transforms : Exprs → Exprs
  | .nil => .nil
  | .cons e es => .cons (transform e) (transforms es)
end

/-- `TorchTransformer().visit(tree)`, line 161: names of functions and of parameters are no `ast.Name` and stay. -/
def Fn.transform (f : Fn) : Fn := { f with body := f.body.map (fun s => (Torch.transform s.1, Torch.transform s.2)), ret := Torch.transform f.ret }

/-! ### Python -/

/-- Values: numbers (`true`: tensors), lists of numbers, functions and modules by name. -/
inductive Val where
  | num (t : Bool) (x : ℝ)
  | seq (vs : List (Bool × ℝ))
  | fn (n : String)
  | mod (n : String)

/-- Where a function runs: its global names, the attributes of modules, and what functions do. -/
structure World where
  globals : Dict String Val
  attr : String → String → Option Val
  prim : String → List Val → Except String Val

/-- Attributes of modules that were assigned. -/
abbrev Attrs := Dict (String × String) Val

/-- The value of a name: names that are parameters or assigned anywhere in the function are local. -/
def lookup (W : World) (L : List String) (ρ : Dict String Val) (n : String) : Except String Val :=
  if n ∈ L then match Dict.get? ρ n with
    | some v => .ok v
    | none => .error "UnboundLocalError"
  else match Dict.get? W.globals n with
    | some v => .ok v
    | none => .error "NameError"

/-- Arithmetic on two numbers. -/
noncomputable def arith (op : Op) (x y : ℝ) : Except String ℝ :=
  match op with
  | .add => .ok (x + y)
  | .sub => .ok (x - y)
  | .mul => .ok (x * y)
  | .div => open Classical in if y = 0 then .error "ZeroDivisionError" else .ok (x / y)

/-- The numbers in a list of values. -/
def numbers : List Val → Except String (List (Bool × ℝ))
  | [] => .ok []
  | .num t x :: vs => (numbers vs).map (fun l => (t, x) :: l)
  | _ :: _ => .error "TypeError"

/-- The attribute of a value. -/
def getAttr (W : World) (T : Attrs) (a : String) : Val → Except String Val
  | .mod m => match Dict.get? T (m, a) with
    | some v => .ok v
    | none => match W.attr m a with
      | some v => .ok v
      | none => .error "AttributeError"
  | _ => .error "AttributeError"

/-- `-v` -/
noncomputable def negVal : Val → Except String Val
  | .num t x => .ok (.num t (-x))
  | _ => .error "TypeError"

/-- `v ** n` -/
noncomputable def powVal (n : Nat) : Val → Except String Val
  | .num t x => .ok (.num t (x ^ n))
  | _ => .error "TypeError"

/-- `v op w`: a tensor if one of them is. -/
noncomputable def binVal (op : Op) : Val → Val → Except String Val
  | .num t x, .num u y => (arith op x y).map (Val.num (t || u))
  | _, _ => .error "TypeError"

/-- `f(args)` -/
def callVal (W : World) (args : List Val) : Val → Except String Val
  | .fn n => W.prim n args
  | _ => .error "TypeError"

mutual
/-- The value of an expression. -/
noncomputable def eval (W : World) (T : Attrs) (L : List String) (ρ : Dict String Val) : Expr → Except String Val
  | .num x => .ok (.num false x)
  | .name n => lookup W L ρ n
  | .attr e a => (eval W T L ρ e).bind (getAttr W T a)
  | .neg e => (eval W T L ρ e).bind negVal
  | .bin op l r => (eval W T L ρ l).bind fun x => (eval W T L ρ r).bind (binVal op x)
  | .pow e n => (eval W T L ρ e).bind (powVal n)
  | .call f args => (eval W T L ρ f).bind fun g => (evals W T L ρ args).bind fun vs => callVal W vs g
  | .seq es => (evals W T L ρ es).bind fun vs => (numbers vs).map Val.seq
/-- The values of expressions. -/
noncomputable def evals (W : World) (T : Attrs) (L : List String) (ρ : Dict String Val) : Exprs → Except String (List Val)
  | .nil => .ok []
  | .cons e es => (eval W T L ρ e).bind fun v => (evals W T L ρ es).map (fun vs => v :: vs)
end

/-- An assignment to a name or to an attribute of a module. -/
noncomputable def assign (W : World) (L : List String) (st : Dict String Val × Attrs) (s : Expr × Expr) : Except String (Dict String Val × Attrs) :=
  (eval W st.2 L st.1 s.2).bind fun v => match s.1 with
    | .name n => .ok (Dict.set st.1 n v, st.2)
    | .attr o a => (eval W st.2 L st.1 o).bind fun
      | .mod m => .ok (st.1, Dict.set st.2 (m, a) v)
      | _ => .error "AttributeError"
    | _ => .error "SyntaxError"

/-- The names that are assigned. -/
def assigned (body : List (Expr × Expr)) : List String :=
  body.filterMap (fun s => match s.1 with
    | .name n => some n
    | _ => none)

/-- `f(*args)`: the value, and the attributes of modules afterwards (simplification: they are forgotten after an exception). -/
noncomputable def run (W : World) (f : Fn) (T : Attrs) (args : List Val) : Except String (Val × Attrs) :=
  if args.length = f.params.length then
    (f.body.foldlM (assign W (f.params ++ assigned f.body)) ((f.params.zip args), T)).bind fun st =>
      (eval W st.2 (f.params ++ assigned f.body) st.1 f.ret).map (fun v => (v, st.2))
  else .error "TypeError"

/-! ### torch -/

/-- Attributes of `torch` and `np` before any assignment. -/
noncomputable def libAttr (m a : String) : Option Val :=
  if m = "torch" then
    if a = "pi" then some (.num false Real.pi)
    else if a = "sin" then some (.fn "torch.sin")
    else if a = "cos" then some (.fn "torch.cos")
    else if a = "relu" then some (.fn "torch.relu")
    else if a = "abs" then some (.fn "torch.abs")
    else none
  else if m = "np" then
    if a = "pi" then some (.num false Real.pi) else none
  else none

/-- The functions of torch that are modelled: arguments must be tensors. The built-in `abs` takes numbers, too. -/
noncomputable def libPrim (n : String) (args : List Val) : Except String Val :=
  match args with
  | [.num t x] =>
    if n = "abs" then .ok (.num t |x|)
    else if t then
      if n = "torch.sin" then .ok (.num true (Real.sin x))
      else if n = "torch.cos" then .ok (.num true (Real.cos x))
      else if n = "torch.relu" then .ok (.num true (max x 0))
      else if n = "torch.abs" then .ok (.num true |x|)
      else .error "TypeError"
    else .error "TypeError"
  | _ => .error "TypeError"

/-- `norm`, sensor_parser.py 39-53, and `atan2_crown_safe`, 78-103, on values; they use functions of torch, which take tensors only. (`atan2_crown`, 55-76, has no
model here.) -/
noncomputable def torchPrim (n : String) (args : List Val) : Except String Val :=
  if n = "norm" then match args with
    | [.seq vs] => if vs.all Prod.fst ∧ vs ≠ [] then .ok (.num true (SensP.torchNorm (vs.map Prod.snd))) else .error "TypeError"
    | [.num true x] => .ok (.num true (SensP.torchNorm [x]))
    | _ => .error "TypeError"
  else if n = "atan2_crown_safe" then match args with
    | [.num true y, .num true x] => .ok (.num true (SensP.atan2Safe y x))
    | _ => .error "TypeError"
  else libPrim n args

/-- `local_env`, sensor_parser.py 167-175: modules and functions, then the arguments, then the function itself; and the built-in names. -/
noncomputable def localEnv (f : Fn) (args : List Val) : World :=
  { globals := Dict.set ((f.params.zip args).foldl (fun d (p : String × Val) => Dict.set d p.1 p.2)
      [("torch", .mod "torch"), ("np", .mod "np"), ("norm", .fn "norm"), ("atan2_crown", .fn "atan2_crown"),
       ("atan2_crown_safe", .fn "atan2_crown_safe"), ("abs", .fn "abs")]) f.name (.fn "<the function itself>"),
    attr := libAttr, prim := torchPrim }

/-- `forward`, sensor_parser.py 181-187: `torch.concat` takes tensors; and a single output must be a tensor. -/
def outputs : Val → Except String (List ℝ)
  | .num true x => .ok [x]
  | .seq vs => if vs.all Prod.fst then .ok (vs.map Prod.snd) else .error "TypeError"
  | _ => .error "TypeError"

/-- `TorchFuncModule(fn)(*args)`, sensor_parser.py 125-187, for tensors with the numbers `xs`. -/
noncomputable def runTorch (f : Fn) (T : Attrs) (xs : List ℝ) : Except String (List ℝ × Attrs) :=
  (run (localEnv f (xs.map (Val.num true))) f.transform T (xs.map (Val.num true))).bind fun r => (outputs r.1).map (fun y => (y, r.2))

/-- A session: sensors are called one after the other; an exception is reported, and the next call is made. -/
noncomputable def session : Attrs → List (Fn × List ℝ) → List (Except String (List ℝ))
  | _, [] => []
  | T, c :: cs => match runTorch c.1 T c.2 with
    | .ok r => .ok r.1 :: session r.2 cs
    | .error e => .error e :: session T cs

end Verif.Torch
