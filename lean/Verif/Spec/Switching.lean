import Verif.Spec.Decision

/-!
A class of decision logics the parser must accept: `if`s over the inputs, nested in any way, that assign modes or constants to
attributes of the output, and assertions.
-/

set_option autoImplicit false

namespace Verif.Py

variable {V : Type}

mutual
/-- An expression over the inputs: constants, inputs and their attributes, operators, `any`/`all`/`sum` over an input. -/
def Input (N : Names) : Expr V → Prop
  | .const _ => True
  | .str _ => True
  | .name n => N.A n
  | .attr e _ => ∃ n, e = .name n ∧ N.A n
  | .unary _ e => Input N e
  | .binop _ l r => Input N l ∧ Input N r
  | .boolop _ es => InputL N es
  | .compare l rest => Input N l ∧ InputC N rest
  | .gen op elt x iter ifs =>
    N.B x ∧ N.Local op.name ∧ (∃ n, iter = .name n ∧ N.A n) ∧ Input (N.under x) elt ∧ InputL (N.under x) ifs
  | _ => False
def InputL (N : Names) : Exprs V → Prop
  | .nil => True
  | .cons e es => Input N e ∧ InputL N es
def InputC (N : Names) : Cmps V → Prop
  | .nil => True
  | .cons _ e rest => Input N e ∧ InputC N rest
end

/-- A constant or a mode `M.a` of one of the mode classes. -/
def Literal (modes : List String) : Expr V → Prop
  | .const _ => True
  | .str _ => True
  | .attr e _ => ∃ M, e = .name M ∧ M ∈ modes
  | _ => False

mutual
/-- the attributes assigned in a statement -/
def assigned : Stmt V → List String
  | .setattr _ a _ => [a]
  | .ite _ b o => assigneds b ++ assigneds o
  | _ => []
def assigneds : List (Stmt V) → List String
  | [] => []
  | s :: ss => assigned s ++ assigneds ss
end

mutual
/-- Switching statements. -/
def Switching (N : Names) (modes : List String) (out : String) : Stmt V → Prop
  | .setattr x _ e => x = out ∧ Literal modes e
  | .ite t b o => Input N t ∧ Switchings N modes out b ∧ Switchings N modes out o
  | .assert c _ => Input N c
  | .assign _ _ => False
/-- Blocks of switching statements; an attribute that the block assigns is not assigned in a later `if` of the block. -/
def Switchings (N : Names) (modes : List String) (out : String) : List (Stmt V) → Prop
  | [] => True
  | s :: ss => Switching N modes out s ∧
    (∀ x a e, s = .setattr x a e → ∀ t b o, .ite t b o ∈ ss → a ∉ assigned (.ite t b o)) ∧ Switchings N modes out ss
end

end Verif.Py
