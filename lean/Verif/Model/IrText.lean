import Verif.Model.Unparse

/-!
`ControllerIR.dump` and `ControllerIR.ir_eq`, verse/parser/parser.py:333-369: symbolic values of variables are compared by their text. Also the
comparisons of parts (`CondValCase.__eq__`, `Reduction.__eq__`, `_Assert.__eq__`) and `merge_if_val`, which use it.

Simplifications
* `unparse` is that of `Verif.Model.Unparse`: expressions without reductions inside (a reduction is a whole value or a whole condition here).
* Functions (`Lambda`), modes and states as values are not modelled. The attributes of an object are not objects.
* Keyword `dump` is `False`, as in every call from `ir_eq`.
-/

set_option autoImplicit false

namespace Verif.IrText

open Verif.Unparse (Text Expr unparse)

/-- `ReductionType`, parser.py:118-123. -/
inductive RedOp | any | all | max | min | sum
deriving DecidableEq, Repr

/-- `ReductionType.__str__`, parser.py:129-136. -/
def RedOp.text : RedOp → Text
  | .any => ['a', 'n', 'y']
  | .all => ['a', 'l', 'l']
  | .max => ['m', 'a', 'x']
  | .min => ['m', 'i', 'n']
  | .sum => ['s', 'u', 'm']

/-- Values without cases: an expression, an argument of the function (`ast.arg`, its name), or a `Reduction`, parser.py:140-148. -/
inductive Leaf
  | expr (e : Expr)
  | hole (n : Text)
  | red (op : RedOp) (e : Expr) (it : Text) (value : Expr)

/-- `CondValCase`, parser.py:90-95. -/
structure Case where
  conds : List Leaf
  val : Leaf

/-- An expression or a `CondVal`, parser.py:108-112. -/
inductive Cell
  | leaf (l : Leaf)
  | cond (cs : List Case)

/-- `ScopeValue`, parser.py:69: a cell or a dictionary of attributes, in the order of insertion. -/
inductive Value
  | cell (c : Cell)
  | obj (d : List (Text × Cell))

/-- `', '.join(…)`. -/
def join : List Text → Text
  | [] => []
  | [t] => t
  | t :: ts => t ++ (',' :: ' ' :: join ts)

/-- `ControllerIR.dump` of an argument 336-337, of a reduction 351-352, and of other nodes 359-360. -/
def dumpLeaf : Leaf → Text
  | .expr e => unparse e
  | .hole n => (['H', 'o', 'l', 'e', '('] : Text) ++ (n ++ ([')'] : Text))
  | .red op e it v => (['<', 'R', 'e', 'd', 'u', 'c', 't', 'i', 'o', 'n', ' '] : Text) ++ (op.text ++ (' ' :: (unparse e ++ (([' ', 'f', 'o', 'r', ' '] : Text) ++ (it ++ (([' ', 'i', 'n', ' '] : Text) ++ (unparse v ++ ['>'])))))))

/-- `f'{ControllerIR.dump(e.val)} if {ControllerIR.dump(e.cond)}'`, parser.py:343, with the list of 357-358. -/
def dumpCase (c : Case) : Text := dumpLeaf c.val ++ (([' ', 'i', 'f', ' '] : Text) ++ ('[' :: (join (c.conds.map dumpLeaf) ++ [']'])))

/-- `ControllerIR.dump` of a `CondVal`, parser.py:342-343. -/
def dumpCell : Cell → Text
  | .leaf l => dumpLeaf l
  | .cond cs => (['<', 'C', 'o', 'n', 'd', 'V', 'a', 'l', ' ', '['] : Text) ++ (join (cs.map dumpCase) ++ [']', '>'])

/-- `f"{k}: {ControllerIR.dump(v)}"`, parser.py:355. -/
def dumpItem (p : Text × Cell) : Text := p.1 ++ (':' :: ' ' :: dumpCell p.2)

/-- `ControllerIR.dump` of a value, parser.py:333-360; `None` for a variable without a value, 334-335. -/
def dump : Option Value → Text
  | none => (['N', 'o', 'n', 'e'] : Text)
  | some (.cell c) => dumpCell c
  | some (.obj d) => '{' :: (join (d.map dumpItem) ++ ['}'])

/-- `ControllerIR.ir_eq`, parser.py:362-367. -/
def irEq (a b : Option Value) : Bool := dump a == dump b

/-- `ControllerIR.ir_eq` on values without cases. -/
def leafEq (a b : Leaf) : Bool := dumpLeaf a == dumpLeaf b

/-- `all(ControllerIR.ir_eq(a, b) for a, b in zip(xs, ys))`. -/
def allEq : List Leaf → List Leaf → Bool
  | a :: as, b :: bs => leafEq a b && allEq as bs
  | _, _ => true

/-- `CondValCase.__eq__`, parser.py:97-102. -/
def caseEq (a b : Case) : Bool := a.conds.length == b.conds.length && (allEq a.conds b.conds && leafEq a.val b.val)

/-- `_Assert`, parser.py:166-170. -/
structure PAssert where
  cond : Leaf
  label : Option Text
  pre : List Leaf

/-- `_Assert.__eq__`, parser.py:172-179. -/
def assertEq (a b : PAssert) : Bool := a.pre.length == b.pre.length && (allEq a.pre b.pre && leafEq a.cond b.cond)

/-- `as_cv`, parser.py:659-664: the cases of a value; none for a variable without a value. -/
def asCases : Option Cell → List Case
  | none => []
  | some (.leaf l) => [⟨[], l⟩]
  | some (.cond cs) => cs

/-- `merge_cond`, parser.py:651-657, on a list of cases. -/
def addCond (test : Expr) (cs : List Case) : List Case := cs.map (fun c => { c with conds := c.conds ++ [.expr test] })

/-- Removal of the cases of `orig`, parser.py:667-672; `list.remove` drops the first equal element. -/
def eraseCases (orig cs : List Case) : List Case := orig.foldl (fun (acc : List Case) o => acc.eraseP (fun c => caseEq o c)) cs

/-- `merge_if_val`, parser.py:648-691. -/
def mergeIfVal (test : Expr) (t f o : Option Cell) : Except String Cell :=
  let ts := eraseCases (asCases o) (asCases t)
  let fs := eraseCases (asCases o) (asCases f)
  if ts.isEmpty && fs.isEmpty then .error "no need for merge?"
  else .ok (.cond (addCond test ts ++ addCond (.un .not test) fs ++ asCases o))

/-- One step of `merge_if_single`, parser.py:618-645, for a variable that is not an object: `t` and `f` are its values after the branches, `o` is the value
before the `if`. The result is the value after the `if`. -/
def mergeVar (test : Expr) (t f o : Option Cell) : Except String (Option Cell) :=
  if irEq (t.map .cell) (f.map .cell) then .ok o
  else (mergeIfVal test t f o).map some

end Verif.IrText
