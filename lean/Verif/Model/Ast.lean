import Verif.Model.Basic

/-!
Syntax of decision logic: the fragment of Python's `ast` that verse/parser/parser.py accepts in expressions and
statements, together with the two extra nodes the parser inserts.
-/

set_option autoImplicit false

namespace Verif.Py

/-- `ast.Not`, or another unary operator by name. -/
inductive UnOp where
  | not
  | other (s : String)
deriving DecidableEq, Repr

/-- `ast.And` / `ast.Or` -/
inductive BOp where
  | and
  | or
deriving DecidableEq, Repr

/-- `ReductionType`, verse/parser/parser.py:118-136, without `Max` and `Min`, which `proc` rejects (line 904). -/
inductive RedOp where
  | any
  | all
  | sum
deriving DecidableEq, Repr

/-- The name of the built-in; `ReductionType.__str__`, verse/parser/parser.py:129-136. -/
def RedOp.name : RedOp → String
  | .any => "any"
  | .all => "all"
  | .sum => "sum"

mutual
/-- Expressions. Source expressions and the parser's IR share this type, as they share `ast.AST` in Python. -/
inductive Expr (V : Type) where
  /-- `ast.Constant` holding a number or a boolean -/
  | const (v : V)
  /-- `ast.Constant` holding a string -/
  | str (s : String)
  /-- `ast.Name` -/
  | name (n : String)
  /-- `ast.arg`, a "hole": a name whose value is not known, with its annotation (verse/parser/parser.py:467-468) -/
  | hole (n : String) (typ : Option String)
  /-- `ast.Attribute` -/
  | attr (e : Expr V) (a : String)
  /-- `ast.UnaryOp` -/
  | unary (op : UnOp) (e : Expr V)
  /-- `ast.BinOp` -/
  | binop (op : String) (l r : Expr V)
  /-- `ast.BoolOp` -/
  | boolop (op : BOp) (es : Exprs V)
  /-- `ast.Compare`: `l op₁ e₁ op₂ e₂ …` -/
  | compare (l : Expr V) (rest : Cmps V)
  /-- `ast.Call` of a function `f(args)` -/
  | call (f : String) (args : Exprs V)
  /-- `ast.Call` of a method `o.f(args)` -/
  | mcall (o : String) (f : String) (args : Exprs V)
  /-- `any/all/sum(elt for target in iter if ifs)` as written in the source -/
  | gen (op : RedOp) (elt : Expr V) (target : String) (iter : Expr V) (ifs : Exprs V)
  /-- `Reduction`, verse/parser/parser.py:139-163 -/
  | red (op : RedOp) (expr : Expr V) (it : String) (value : Expr V)
  /-- `ast.IfExp`: `b if t else o` -/
  | ifexp (t b o : Expr V)
  /-- Something inside an expression that cannot be compiled: a `CondVal`, a `dict`, a `Lambda` or `None`
  (the value of an unknown name). `Env.trans_args` raises on a `CondVal` (verse/parser/parser.py:493) and `compile` on the
  others. Simplification: what exactly is inside is forgotten. -/
  | opaque
/-- A list of expressions (a list type of its own, so that equality of expressions is decidable structurally). -/
inductive Exprs (V : Type) where
  | nil
  | cons (e : Expr V) (es : Exprs V)
/-- The operators and comparators of an `ast.Compare`. -/
inductive Cmps (V : Type) where
  | nil
  | cons (op : String) (e : Expr V) (rest : Cmps V)
end

deriving instance DecidableEq for Expr, Exprs, Cmps

/-- Lean lists as `Exprs`. -/
def Exprs.ofList {V : Type} : List (Expr V) → Exprs V
  | [] => .nil
  | e :: es => .cons e (ofList es)

/-- `Exprs` as Lean lists. -/
def Exprs.toList {V : Type} : Exprs V → List (Expr V)
  | .nil => []
  | .cons e es => e :: es.toList

/-- Number of expressions. -/
def Exprs.length {V : Type} : Exprs V → Nat
  | .nil => 0
  | .cons _ es => es.length + 1

/-- Statements: the ones `proc` (verse/parser/parser.py:749-952) handles inside a function. `return x` is kept separate
(it must be the last statement). -/
inductive Stmt (V : Type) where
  /-- `x = e` -/
  | assign (x : String) (e : Expr V)
  /-- `x.a = e` -/
  | setattr (x a : String) (e : Expr V)
  /-- `if test: body else: orelse` -/
  | ite (test : Expr V) (body orelse : List (Stmt V))
  /-- `assert cond, label` -/
  | assert (cond : Expr V) (label : Option String)

end Verif.Py
