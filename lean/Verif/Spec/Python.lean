import Verif.Model.Ast

/-!
What decision logic means in Python: evaluation of expressions in a store and execution of statements. This is written
from the language reference and does not use anything of the parser model.

Values are an arbitrary type `V`; the operations on them are an arbitrary record `PyOps V`. Evaluation does not raise
(operations are total functions on `V`), values are immutable, and `any`/`all`/`sum` range over a finite list.
-/

set_option autoImplicit false

namespace Verif.Py

/-- The operations of the Python objects a decision logic works on. -/
structure PyOps (V : Type) where
  truth : V → Bool
  ofBool : Bool → V
  str : String → V
  getattr : V → String → V
  setattr : V → String → V → V
  unary : String → V → V
  binop : String → V → V → V
  cmp : String → V → V → Bool
  call : V → String → List V → V
  iter : V → List V
  zero : V
  add : V → V → V

/-- The laws used: booleans are their own truth value, attributes are stored, `copy.deepcopy` copies, zero is neutral. -/
structure PyOps.Lawful {V : Type} (P : PyOps V) : Prop where
  truth_ofBool : ∀ b, P.truth (P.ofBool b) = b
  get_set : ∀ o a v b, P.getattr (P.setattr o a v) b = if a = b then v else P.getattr o b
  add_zero : ∀ v, P.add v P.zero = v

/-- A store: what every name is bound to. -/
abbrev Store (V : Type) := String → V

/-- `x` bound to `v` -/
def upd {V : Type} (σ : Store V) (x : String) (v : V) : Store V := fun n => if n = x then v else σ n

/-- parameters bound to arguments, one after the other -/
def updMany {V : Type} (σ : Store V) : List String → List V → Store V
  | x :: xs, v :: vs => updMany (upd σ x v) xs vs
  | _, _ => σ

/-- the value of `any` / `all` / `sum` over the list of values -/
def reduce {V : Type} (P : PyOps V) : RedOp → List V → V
  | .any, vs => P.ofBool (vs.any P.truth)
  | .all, vs => P.ofBool (vs.all P.truth)
  | .sum, vs => vs.foldl P.add P.zero

mutual
/-- value of an expression -/
def eval {V : Type} (P : PyOps V) (σ : Store V) : Expr V → V
  | .const v => v
  | .str s => P.str s
  | .name n => σ n
  | .hole n _ => σ n
  | .attr e a => P.getattr (eval P σ e) a
  | .unary .not e => P.ofBool (!P.truth (eval P σ e))
  | .unary (.other s) e => P.unary s (eval P σ e)
  | .binop op l r => P.binop op (eval P σ l) (eval P σ r)
  | .boolop .and es => evalAnd P σ es
  | .boolop .or es => evalOr P σ es
  | .compare l rest => P.ofBool (evalCmps P σ (eval P σ l) rest)
  | .call f args => P.call (σ f) "" (evalList P σ args)
  | .mcall o f args => P.call (σ o) f (evalList P σ args)
  | .gen op elt x iter ifs =>
    reduce P op (((P.iter (eval P σ iter)).filter (fun v => evalAll P (upd σ x v) ifs)).map
      (fun v => eval P (upd σ x v) elt))
  | .red op e x value => reduce P op ((P.iter (eval P σ value)).map (fun v => eval P (upd σ x v) e))
  | .ifexp t b o => if P.truth (eval P σ t) then eval P σ b else eval P σ o
  | .opaque => P.zero
/-- `e₁ and e₂ and …`: the first false value, or the last one -/
def evalAnd {V : Type} (P : PyOps V) (σ : Store V) : Exprs V → V
  | .nil => P.ofBool true
  | .cons e .nil => eval P σ e
  | .cons e (.cons e' es) => if P.truth (eval P σ e) then evalAnd P σ (.cons e' es) else eval P σ e
/-- `e₁ or e₂ or …`: the first true value, or the last one -/
def evalOr {V : Type} (P : PyOps V) (σ : Store V) : Exprs V → V
  | .nil => P.ofBool false
  | .cons e .nil => eval P σ e
  | .cons e (.cons e' es) => if P.truth (eval P σ e) then eval P σ e else evalOr P σ (.cons e' es)
/-- `v op₁ e₁ op₂ e₂ …`: every comparison of neighbours holds -/
def evalCmps {V : Type} (P : PyOps V) (σ : Store V) (v : V) : Cmps V → Bool
  | .nil => true
  | .cons op e rest => P.cmp op v (eval P σ e) && evalCmps P σ (eval P σ e) rest
/-- the values of a list of arguments -/
def evalList {V : Type} (P : PyOps V) (σ : Store V) : Exprs V → List V
  | .nil => []
  | .cons e es => eval P σ e :: evalList P σ es
/-- all filters of a comprehension hold -/
def evalAll {V : Type} (P : PyOps V) (σ : Store V) : Exprs V → Bool
  | .nil => true
  | .cons e es => P.truth (eval P σ e) && evalAll P σ es
end

mutual
/-- execution of one statement; `error` is an `AssertionError` -/
def exec {V : Type} (P : PyOps V) (σ : Store V) : Stmt V → Except Unit (Store V)
  | .assign x e => .ok (upd σ x (eval P σ e))
  | .setattr x a e => .ok (upd σ x (P.setattr (σ x) a (eval P σ e)))
  | .ite t b o => if P.truth (eval P σ t) then execs P σ b else execs P σ o
  | .assert c _ => if P.truth (eval P σ c) then .ok σ else .error ()
/-- execution of a block -/
def execs {V : Type} (P : PyOps V) (σ : Store V) : List (Stmt V) → Except Unit (Store V)
  | [] => .ok σ
  | s :: ss => (exec P σ s).bind (fun σ' => execs P σ' ss)
end

end Verif.Py
