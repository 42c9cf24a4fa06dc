import Mathlib.Tactic.Common

/-!
`verse/parser/astunparser.py`: the text of an expression (`verse.parser.unparse`, verse/parser/parser.py:30-31).

Simplifications
* Modelled nodes: names, numbers, strings, attributes, calls with positional arguments, subscripts with one index, unary and binary operators,
  `and`, `or`, comparisons with `==`, `!=`, `<`, `<=`, `>`, `>=`, and conditional expressions. `True`, `False` and `None` are names.
* `repr` of a number is given as text: a sign and the text without sign; `repr` of a string as the characters between the quotes.
* The final line feed, which `unparse` strips, is omitted.
-/

set_option autoImplicit false

namespace Verif.Unparse

/-- Text. -/
abbrev Text := List Char

inductive UnOp | invert | not | uadd | usub
deriving DecidableEq, Repr

inductive BinOp | add | sub | mult | matMult | div | mod | lShift | rShift | bitOr | bitXor | bitAnd | floorDiv
deriving DecidableEq, Repr

inductive BoolOp | and | or
deriving DecidableEq, Repr

inductive CmpOp | eq | ne | lt | le | gt | ge
deriving DecidableEq, Repr

/-- Expressions, as in Python's module `ast`. `**` is separate from the other binary operators. -/
inductive Expr
  | name (s : Text)
  | num (neg : Bool) (s : Text)
  | str (s : Text)
  | attr (e : Expr) (a : Text)
  | call (f : Expr) (args : List Expr)
  | subs (e i : Expr)
  | un (op : UnOp) (e : Expr)
  | bin (op : BinOp) (a b : Expr)
  | pow (a b : Expr)
  | bool (op : BoolOp) (es : List Expr)
  | cmp (a : Expr) (rest : List (CmpOp × Expr))
  | ite (test body orelse : Expr)

/-- `unop`, astunparser.py:698. -/
def unText : UnOp → Text
  | .invert => ['~']
  | .not => ['n', 'o', 't']
  | .uadd => ['+']
  | .usub => ['-']

/-- `binop`, astunparser.py:717-731. -/
def binText : BinOp → Text
  | .add => ['+']
  | .sub => ['-']
  | .mult => ['*']
  | .matMult => ['@']
  | .div => ['/']
  | .mod => ['%']
  | .lShift => ['<', '<']
  | .rShift => ['>', '>']
  | .bitOr => ['|']
  | .bitXor => ['^']
  | .bitAnd => ['&']
  | .floorDiv => ['/', '/']

/-- `boolops`, astunparser.py:761. -/
def boolText : BoolOp → Text
  | .and => ['a', 'n', 'd']
  | .or => ['o', 'r']

/-- `cmpops`, astunparser.py:740-751. -/
def cmpText : CmpOp → Text
  | .eq => ['=', '=']
  | .ne => ['!', '=']
  | .lt => ['<']
  | .le => ['<', '=']
  | .gt => ['>']
  | .ge => ['>', '=']

mutual
/-- `dispatch`, astunparser.py:67-74, with `_Name` 555, `_Constant` 573-588, `_Attribute` 769-779 (the space after an integer is omitted, as attributes
of numbers are not considered), `_Call` 781-812, `_Subscript` 814-818, `_UnaryOp` 700-715, `_BinOp` 733-738, `_BoolOp` 763-767, `_Compare` 753-759,
`_IfExp` 652-659. -/
def unparse : Expr → Text
  | .name s => s
  | .num neg s => if neg then '-' :: s else s
  | .str s => '\'' :: (s ++ ['\''])
  | .attr e a => unparse e ++ '.' :: a
  | .call f args => unparse f ++ '(' :: (sepBy [',', ' '] args ++ [')'])
  | .subs e i => unparse e ++ '[' :: (unparse i ++ [']'])
  | .un op e => '(' :: (unText op ++ ' ' :: (unparse e ++ [')']))
  | .bin op a b => '(' :: (unparse a ++ ' ' :: (binText op ++ ' ' :: (unparse b ++ [')'])))
  | .pow a b => '(' :: (unparse a ++ ' ' :: ('*' :: '*' :: ' ' :: (unparse b ++ [')'])))
  | .bool op es => '(' :: (sepBy (' ' :: (boolText op ++ [' '])) es ++ [')'])
  | .cmp a rest => '(' :: (unparse a ++ (cmpRest rest ++ [')']))
  | .ite t b o => '(' :: (unparse b ++ (" if ".toList ++ (unparse t ++ (" else ".toList ++ (unparse o ++ [')'])))))

/-- `interleave`, astunparser.py:22-32. -/
def sepBy (sep : Text) : List Expr → Text
  | [] => []
  | [e] => unparse e
  | e :: es => unparse e ++ (sep ++ sepBy sep es)

/-- The loop of `_Compare`, 756-758. -/
def cmpRest : List (CmpOp × Expr) → Text
  | [] => []
  | oe :: es => ' ' :: (cmpText oe.1 ++ ' ' :: (unparse oe.2 ++ cmpRest es))
end

/-- `ResetExpression`, reset.py:7-12, built from a variable and the syntax tree of its new value. -/
structure ResetExpression where
  var : Text
  val_ast : Expr
  expr : Text

/-- `ResetExpression.__init__`, reset.py:8-12. -/
def ResetExpression.mk' (var : Text) (val : Expr) : ResetExpression := ⟨var, val, unparse val⟩

/-- `ResetExpression.__eq__` for two reset expressions, reset.py:19. -/
def ResetExpression.eq (a b : ResetExpression) : Bool := a.var == b.var && a.expr == b.expr

end Verif.Unparse
