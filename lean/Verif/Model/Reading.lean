import Verif.Model.Ast
import Verif.Model.Guard

/-!
How `verse/automaton/guard.py` reads the expressions the parser leaves: the tests on the class of the node, on the operator and on the called name.
`none` is an expression that is not a guard of the guard model: a bare name, a conditional expression, a comparison chain, an attribute of an
attribute, arithmetic used as a truth value, …
A list display `[e, …]` is a call of the name `[]`, which is no name of Python: the parser analyses the elements and keeps the node
(verse/parser/parser.py:945-947), as it does for a call of a function it does not know.
Simplification: the map is an object whose name is in the list `maps` of the scope; guard.py:424 tests whether the name contains "map".
-/

set_option autoImplicit false

namespace Verif.Rd
open Verif.Py Verif.Grd

/-- What the names in a guard stand for: agents, lists of agents, functions and modules; and the names of the state variables. -/
structure Scope where
  objs : List String
  attrs : List String
  lists : List String
  funs : List String
  maps : List String

/-- The name that stands for list displays. -/
def listName : String := "[]"

/-- `x` is the variable of a comprehension. -/
def Scope.bind (S : Scope) (x : String) : Scope := { S with objs := x :: S.objs }

/-- The name of a comprehension variable is not the one of a list, of a function or of a map. -/
def Scope.free (S : Scope) (x : String) : Bool := !(S.lists.contains x) && !(S.funs.contains x) && !(S.maps.contains x) && !(x == listName)

/-- `isinstance(node.op, ast.Gt)` …, guard.py:744-757. -/
def cmpOp : String → Option CmpOp
  | ">=" => some .ge
  | ">" => some .gt
  | "<" => some .lt
  | "<=" => some .le
  | "==" => some .eq
  | "!=" => some .ne
  | _ => none

/-- The arithmetic operators (`ast.BinOp`, guard.py:790-798); the solver gets the text of the expression (guard.py:348-352). -/
def binOp : String → Option BinOp
  | "+" => some .add
  | "-" => some .sub
  | "*" => some .mul
  | "/" => some .div
  | _ => none

/-- `node.id`, for `ast.Name` and the holes (`ast.arg`), which `Env.trans_args` has turned into names (verse/parser/parser.py:467-493). -/
def ident {V : Type} : Expr V → Option String
  | .name n => some n
  | .hole n _ => some n
  | _ => none

/-- The map queries, guard.py:425 and 492. -/
def query : String → Option Query
  | "get_lateral_distance" => some .lateral
  | "get_longitudinal_position" => some .longitudinal
  | _ => none

/-- The coordinates of a map query: attributes of agents, guard.py:442-448 and 512-518. -/
def readKeys {V : Type} (S : Scope) : Exprs V → Option (List Key)
  | .nil => some []
  | .cons (.attr e a) es => (ident e).bind fun n =>
    if S.objs.contains n && S.attrs.contains a then (readKeys S es).map fun ks => .attr n a :: ks else none
  | .cons _ _ => none

/-- `assert isinstance(arg1_node, ast.List)`, guard.py:439 and 509. -/
def display {V : Type} : Expr V → Option (Exprs V)
  | .call f es => if f = listName then some es else none
  | _ => none

mutual
/-- Terms: `_evaluate_guard_disc` and `_generate_z3_expression_node`, guard.py:790-905, 280-352. -/
def readT {V K : Type} (lit : V → Option (Val K)) (S : Scope) : Expr V → Option (Term K)
  | .const v => (lit v).map .lit
  | .str s => some (.lit (.str s))
  | .attr e a => (ident e).bind fun n => if S.objs.contains n && S.attrs.contains a then some (.var (.attr n a)) else none
  | .unary op e => if op = .other "-" then (readT lit S e).map .neg else none
  | .binop op l r => (binOp op).bind fun op => (readT lit S l).bind fun l => (readT lit S r).map fun r => .bin op l r
  | .call f args => if S.funs.contains f then (readTs lit S args).map (.call f) else none
  | .mcall o f args => if S.maps.contains o then
      match args with
      | .cons l (.cons c .nil) => (query f).bind fun q => (readT lit S l).bind fun l => (display c).bind fun es => (readKeys S es).map fun ks => .lane q l ks
      | _ => none
    else if S.funs.contains o then (readTs lit S args).map (.call (o ++ "." ++ f)) else none
  | .red op e x value => (ident value).bind fun l =>
    if op = .sum ∧ (S.lists.contains l && S.free x) = true then (readT lit (S.bind x) e).map (.sum x l) else none
  | _ => none
def readTs {V K : Type} (lit : V → Option (Val K)) (S : Scope) : Exprs V → Option (Terms K)
  | .nil => some .nil
  | .cons e es => (readT lit S e).bind fun t => (readTs lit S es).map fun ts => .cons t ts
end

mutual
/-- Formulas: the same functions on the nodes that are used as truth values, guard.py:742-905, 280-352, and the reductions, 1170-1240. -/
def readF {V K : Type} (lit : V → Option (Val K)) (S : Scope) : Expr V → Option (Fml K)
  | .const v => (lit v).bind fun c => match c with
    | .bool b => some (.bool b)
    | _ => none
  | .unary op e => if op = .not then (readF lit S e).map .not else none
  | .boolop op es => (readFs lit S es).map fun fs => match op with
    | .and => .and fs
    | .or => .or fs
  | .compare l rest => match rest with
    | .cons op r .nil => (cmpOp op).bind fun op => (readT lit S l).bind fun l => (readT lit S r).map fun r => .cmp op l r
    | _ => none
  | .call f args => if S.funs.contains f then (readTs lit S args).map (.callb f) else none
  | .mcall o f args => if S.funs.contains o then (readTs lit S args).map (.callb (o ++ "." ++ f)) else none
  | .red op e x value => (ident value).bind fun l =>
    if op ≠ .sum ∧ (S.lists.contains l && S.free x) = true then (readF lit (S.bind x) e).map (.red (decide (op = .all)) x l) else none
  | _ => none
def readFs {V K : Type} (lit : V → Option (Val K)) (S : Scope) : Exprs V → Option (Fmls K)
  | .nil => some .nil
  | .cons e es => (readF lit S e).bind fun t => (readFs lit S es).map fun ts => .cons t ts
end

end Verif.Rd
