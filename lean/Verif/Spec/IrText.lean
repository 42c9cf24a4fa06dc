import Verif.Model.IrText
import Verif.Spec.PyText

/-!
Symbolic values as the parser builds them from a Python program, and the values that a variable can have.
-/

set_option autoImplicit false

namespace Verif.Spec.IrText

open Verif.Unparse (Text Expr)
open Verif.IrText (Leaf Case Cell Value PAssert)
open Verif.Spec.PyText (WF Unsigned Name)

/-- An expression that Python has read. -/
def Source (e : Expr) : Prop := WF e ∧ Unsigned e

/-- An expression of the program, other than a call of a function `Hole` with a name as its argument; an argument; or a reduction. -/
def ProperLeaf : Leaf → Prop
  | .expr e => Source e ∧ ∀ n, e ≠ .call (.name (['H', 'o', 'l', 'e'] : Text)) [.name n]
  | .hole n => Name n
  | .red _ e it v => Source e ∧ Name it ∧ Source v

def ProperCase (c : Case) : Prop := (∀ l ∈ c.conds, ProperLeaf l) ∧ ProperLeaf c.val

def ProperCell : Cell → Prop
  | .leaf l => ProperLeaf l
  | .cond cs => ∀ c ∈ cs, ProperCase c

def Proper : Value → Prop
  | .cell c => ProperCell c
  | .obj d => ∀ p ∈ d, Name p.1 ∧ ProperCell p.2

/-- The values a variable can have where the conditions `holds` are true: the expression itself, or those of the cases whose conditions are all true. A
variable without a value has none. -/
def Has (holds : Leaf → Prop) : Option Cell → Leaf → Prop
  | none, _ => False
  | some (.leaf l), v => v = l
  | some (.cond cs), v => ∃ c ∈ cs, c.val = v ∧ ∀ g ∈ c.conds, holds g

end Verif.Spec.IrText
