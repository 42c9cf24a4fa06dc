import Verif.Model.Ast

/-!
Naming discipline under which decision logic is parsed as Python would read it. `A` are the names that always stand for an
input (parameters, imported modules, mode classes) and are never assigned; `B` are the names used as comprehension variables
and for nothing else; `L f = some (k, bs)` says that `f` is a helper function with `k` parameters whose body binds at most the
names `bs`.
-/

set_option autoImplicit false

namespace Verif.Py

variable {V : Type}

mutual
/-- `n` occurs free in the expression -/
def occurs (n : String) : Expr V → Bool
  | .const _ | .str _ | .opaque => false
  | .name m => m == n
  | .hole m _ => m == n
  | .attr e _ => occurs n e
  | .unary _ e => occurs n e
  | .binop _ l r => occurs n l || occurs n r
  | .boolop _ es => occursL n es
  | .compare l rest => occurs n l || occursC n rest
  | .call f args => f == n || occursL n args
  | .mcall o _ args => o == n || occursL n args
  | .gen _ elt x iter ifs => occurs n iter || (n != x && (occurs n elt || occursL n ifs))
  | .red _ e x value => occurs n value || (n != x && occurs n e)
  | .ifexp t b o => occurs n t || occurs n b || occurs n o
def occursL (n : String) : Exprs V → Bool
  | .nil => false
  | .cons e es => occurs n e || occursL n es
def occursC (n : String) : Cmps V → Bool
  | .nil => false
  | .cons _ e rest => occurs n e || occursC n rest
end

/-- The naming discipline. -/
structure Names where
  A : String → Prop
  B : String → Prop
  L : String → Option (Nat × List String)

/-- Inside a comprehension over `x`. -/
def Names.under (N : Names) (x : String) : Names :=
  { A := fun n => n = x ∨ N.A n, B := fun n => n ≠ x ∧ N.B n, L := N.L }

mutual
/-- The expression respects the naming discipline: comprehension variables are used for nothing else, comprehensions range over
an input, filters and conditional expressions mention inputs (and the comprehension variable) only, called functions are inputs or
helpers called with the right number of arguments whose bound names are not in scope. -/
def Static (N : Names) : Expr V → Prop
  | .const _ | .str _ | .name _ => True
  | .hole _ _ | .red _ _ _ _ | .opaque => False
  | .attr e _ => Static N e
  | .unary _ e => Static N e
  | .binop _ l r => Static N l ∧ Static N r
  | .boolop _ es => StaticL N es
  | .compare l rest => Static N l ∧ StaticC N rest
  | .call f args =>
    (N.A f ∨ ∃ k bs, N.L f = some (k, bs) ∧ args.length = k ∧ ∀ y ∈ bs, N.B y) ∧ StaticL N args
  | .mcall o _ args => N.A o ∧ StaticL N args
  | .gen _ elt x iter ifs =>
    N.B x ∧ (∃ n, iter = .name n ∧ N.A n) ∧ (∀ n, occursL n ifs = true → n = x ∨ N.A n) ∧ Static (N.under x) elt
  | .ifexp t b o => ∀ n, occurs n (.ifexp t b o) = true → N.A n
def StaticL (N : Names) : Exprs V → Prop
  | .nil => True
  | .cons e es => Static N e ∧ StaticL N es
def StaticC (N : Names) : Cmps V → Prop
  | .nil => True
  | .cons _ e rest => Static N e ∧ StaticC N rest
end

/-- A right-hand side that computes something: not a bare name, not an attribute of a variable that is not an input, not a copy
of an object, not a bare call of a helper. -/
def Plain (N : Names) : Expr V → Prop
  | .name _ => False
  | .attr e _ => ∃ n, e = .name n ∧ N.A n
  | .call f _ => N.L f = none
  | .mcall o f _ => ¬ (o = "copy" ∧ f = "deepcopy")
  | _ => True

/-- `copy.deepcopy(n)` -/
def deepcopy (n : String) : Expr V := .mcall "copy" "deepcopy" (.cons (.name n) .nil)

/-- `x` may be assigned: it is not an input, a comprehension variable or a helper. -/
def Names.Local (N : Names) (x : String) : Prop := ¬ N.A x ∧ ¬ N.B x ∧ N.L x = none

mutual
/-- The statement respects the naming discipline. -/
def StaticS (N : Names) : Stmt V → Prop
  | .assign x e => N.Local x ∧ Static N e ∧ Plain N e
  | .setattr x _ e => N.Local x ∧ Static N e ∧ Plain N e
  | .ite t b o => Static N t ∧ StaticSs N b ∧ StaticSs N o
  | .assert c _ => Static N c
def StaticSs (N : Names) : List (Stmt V) → Prop
  | [] => True
  | s :: ss => StaticS N s ∧ StaticSs N ss
end

end Verif.Py
