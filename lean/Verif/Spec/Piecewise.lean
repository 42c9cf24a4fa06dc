import Verif.Model.Piecewise
import Verif.Spec.Angle

/-! Meaning of z3 formulas, what is assumed of the optimizer, and what it means that bounds cover values. -/

set_option autoImplicit false

namespace Verif.Spec

open Verif.Pw

variable {K : Type} [Field K] [LinearOrder K]

/-- Value of a z3 term. Division by zero has an arbitrary value in z3, given by `d0`. -/
def ZE.val (d0 : K → K) (x : String → K) : ZE K → K
  | .var n => x n
  | .const c => c
  | .neg a => -(ZE.val d0 x a)
  | .add a b => ZE.val d0 x a + ZE.val d0 x b
  | .sub a b => ZE.val d0 x a - ZE.val d0 x b
  | .mul a b => ZE.val d0 x a * ZE.val d0 x b
  | .div a b => if ZE.val d0 x b = 0 then d0 (ZE.val d0 x a) else ZE.val d0 x a / ZE.val d0 x b

def ZF.Holds (d0 : K → K) (x : String → K) : ZF K → Prop
  | .tt => True
  | .cmp op a b => op.test (ZE.val d0 x a) (ZE.val d0 x b) = true
  | .and a b => ZF.Holds d0 x a ∧ ZF.Holds d0 x b
  | .or a b => ZF.Holds d0 x a ∨ ZF.Holds d0 x b
  | .not a => ¬ ZF.Holds d0 x a

/-- A point lies in a box. -/
def InNamedBox (box : Dict String (K × K)) (x : String → K) : Prop := ∀ p ∈ box, p.2.1 ≤ x p.1 ∧ x p.1 ≤ p.2.2

/-- What is assumed of z3's `Optimize`: when a point of the box satisfies the formula, both objectives have
a value for every variable of the box, and they bound the variable over all such points; otherwise the check fails. -/
structure OptCorrect (opt : Opt K) : Prop where
  lower : ∀ box f n d0 x, n ∈ box.map Prod.fst → InNamedBox box x → ZF.Holds d0 x f → ∃ v, opt true box f n = some v ∧ v ≤ x n
  upper : ∀ box f n d0 x, n ∈ box.map Prod.fst → InNamedBox box x → ZF.Holds d0 x f → ∃ v, opt false box f n = some v ∧ x n ≤ v
  unsat : ∀ m box f n, (∀ d0 x, InNamedBox box x → ¬ ZF.Holds d0 x f) → opt m box f n = none

open Classical in
/-- An optimizer that meets the assumptions: it answers with the bounds of the box. -/
noncomputable def looseOpt : Opt K := fun m box f n =>
  if ∃ d0 x, InNamedBox box x ∧ ZF.Holds d0 x f then (Dict.get? box n).map fun b => if m then b.1 else b.2 else none

/-- The variables that have values are those that have bounds, and the values lie in the bounds. -/
structure EnvIn (env : Env K) (b : Bounds K) : Prop where
  inside : ∀ p ∈ b, ∃ w, Dict.get? env p.1 = some w ∧ InSome p.2 w
  known : ∀ n w, Dict.get? env n = some w → n ∈ b.map Prod.fst

/-- The bounds computed for an expression contain its value. -/
def ExprSound (F : Funs K) (eb : EB K) (e : PE K) : Prop :=
  ∀ b l, eb e b = .ok l → ∀ env v, EnvIn env b → evalE F env e = some v → InSome l v

/-- No comparison of the condition has more than one operator. -/
def Unchained : PC K → Prop
  | .cmp _ ops => ops.length = 1
  | .and a b => Unchained a ∧ Unchained b
  | .or a b => Unchained a ∧ Unchained b
  | .not a => Unchained a
  | .other => True

/-- An `if` statement whose branches all begin with `return`, with `elif` branches and a final `else`;
`outs` are the returned expressions. -/
inductive IfChain : PC K → List (PS K) → List (PS K) → List (PE K) → Prop
  | last (c : PC K) (e e' : PE K) (r r' : List (PS K)) (hc : Unchained c) : IfChain c (.ret e :: r) (.ret e' :: r') [e, e']
  | step (c c' : PC K) (e : PE K) (r b' o' : List (PS K)) (outs : List (PE K)) (hc : Unchained c) (h : IfChain c' b' o' outs) :
      IfChain c (.ret e :: r) [.ifS c' b' o'] (e :: outs)

end Verif.Spec
