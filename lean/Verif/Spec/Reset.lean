import Verif.Model.Reset
import Verif.Spec.Rect

/-!
What a reset expression denotes in a state, and what resets do to a state.
-/

set_option autoImplicit false

namespace Verif.Rst.Spec

open Verif.Rst

variable {K : Type} [Field K] [LinearOrder K]

/-- The value of an expression: `vars` gives the values of the variables, all other atoms are numerals. -/
def value (rd : Text → Option K) (vars : Text → Option K) : Ex → Option K
  | .atom t => (vars t).or (rd t)
  | .neg a => (value rd vars a).map (fun x => -x)
  | .add a b => (value rd vars a).bind fun x => (value rd vars b).map fun y => x + y
  | .sub a b => (value rd vars a).bind fun x => (value rd vars b).map fun y => x - y
  | .mul a b => (value rd vars a).bind fun x => (value rd vars b).map fun y => x * y
  | .div a b => (value rd vars a).bind fun x => (value rd vars b).bind fun y => if y = 0 then none else some (x / y)
  | .pow a n => (value rd vars a).map (fun x => x ^ n)

/-- `vars` is a valuation within the ranges: exactly the variables of the dictionary have a value, and it is in the range. -/
def InRange (D : Dict Text (K × K)) (vars : Text → Option K) : Prop :=
  ∀ t, match Dict.get? D t with
    | some r => ∃ x, vars t = some x ∧ r.1 ≤ x ∧ x ≤ r.2
    | none => vars t = none

/-- The valuation `vars` with another value for `t`. -/
def upd (vars : Text → Option K) (t : Text) (x : K) : Text → Option K := fun u => if u = t then some x else vars u

/-- Over the ranges, `e` has a value, and in each variable separately this is between the values at the two ends of the range (for instance
because `e` is monotone in each variable). -/
def Between (rd : Text → Option K) (D : Dict Text (K × K)) (e : Ex) : Prop :=
  ∀ vars, InRange D vars → (∃ y, value rd vars e = some y) ∧
    ∀ t r y yl yh, (t, r) ∈ D → value rd vars e = some y → value rd (upd vars t r.1) e = some yl →
      value rd (upd vars t r.2) e = some yh → min yl yh ≤ y ∧ y ≤ max yl yh

/-- The atom `t` occurs in `e`. -/
def Occurs (t : Text) (e : Ex) : Prop := t ∈ e.atoms

/-- Affine in each variable: in a product no variable occurs on both sides, divisors and the bases of powers have no variable and divisors
are not zero. -/
inductive MultiAffine (rd : Text → Option K) (isVar : Text → Prop) : Ex → Prop
  | var (t : Text) (h : isVar t) : MultiAffine rd isVar (.atom t)
  | closed (e : Ex) (h : ∀ t, Occurs t e → ¬ isVar t) (x : K) (hx : value rd (fun _ => none) e = some x) : MultiAffine rd isVar e
  | neg (a : Ex) : MultiAffine rd isVar a → MultiAffine rd isVar (.neg a)
  | add (a b : Ex) : MultiAffine rd isVar a → MultiAffine rd isVar b → MultiAffine rd isVar (.add a b)
  | sub (a b : Ex) : MultiAffine rd isVar a → MultiAffine rd isVar b → MultiAffine rd isVar (.sub a b)
  | mul (a b : Ex) (h : ∀ t, isVar t → Occurs t a → ¬ Occurs t b) :
      MultiAffine rd isVar a → MultiAffine rd isVar b → MultiAffine rd isVar (.mul a b)
  | div (a b : Ex) (h : ∀ t, Occurs t b → ¬ isVar t) (x : K) (hx : value rd (fun _ => none) b = some x) (h0 : x ≠ 0) :
      MultiAffine rd isVar a → MultiAffine rd isVar (.div a b)

/-- The texts of the variables can be told apart: names are not empty and no name of a variable is a proper part of an atom of `e`; no
name is part of the text of an end of a range, and that text denotes this number. -/
def Readable (sh : K → Text) (rd : Text → Option K) (D : Dict Text (K × K)) (e : Ex) : Prop :=
  (D.map Prod.fst).Nodup ∧ (∀ kv ∈ D, kv.1 ≠ []) ∧
  (∀ kv ∈ D, ∀ t, Occurs t e → kv.1 <:+: t → t = kv.1) ∧
  (∀ kv ∈ D, ∀ kv' ∈ D, ∀ v, v = kv'.2.1 ∨ v = kv'.2.2 → ¬ kv.1 <:+: sh v ∧ rd (sh v) = some v)

/-- No variable is directly the base of a power. -/
def NoVarPow (D : Dict Text (K × K)) : Ex → Prop
  | .atom _ => True
  | .neg a => NoVarPow D a
  | .add a b => NoVarPow D a ∧ NoVarPow D b
  | .sub a b => NoVarPow D a ∧ NoVarPow D b
  | .mul a b => NoVarPow D a ∧ NoVarPow D b
  | .div a b => NoVarPow D a ∧ NoVarPow D b
  | .pow a _ => NoVarPow D a ∧ ∀ t, a = .atom t → t ∉ D.map Prod.fst ∧ ∀ u, t ≠ '-' :: u

/-- The state after the resets: a variable that is reset has the value of the expression in the old state, the others keep theirs. `vars`
gives the values of the variables that each reset knows. -/
def After {V D : Type} (rd : Text → Option K) (contVars : List String) (items : List (Item K V D)) (vars : Item K V D → Text → Option K)
    (pre post : List K) : Prop :=
  pre.length = post.length ∧ ∀ (i : Nat) (v : String), contVars[i]? = some v →
    (∀ it ∈ items, it.var = v → ∃ e, it.val = .arith e ∧ ∃ x, post[i]? = some x ∧ value rd (vars it) e = some x) ∧
    ((∀ it ∈ items, it.var ≠ v) → post[i]? = pre[i]?)

/-- The value that a reset assigns to a mode variable: a constant, a member of a mode definition, or one of the results of the map. -/
inductive NewMode {V D : Type} (disc : D) : Val V D → V → Prop
  | const (v : V) : NewMode disc (.const v) v
  | member (v : V) : NewMode disc (.member true v) v
  | mapCall (f : D → List V) (v : V) (h : v ∈ f disc) : NewMode disc (.mapCall f) v

/-- The mode after the resets. -/
def ModeAfter {V D : Type} (discVars : List String) (items : List (Item K V D)) (pre post : List V) : Prop :=
  pre.length = post.length ∧ ∀ (i : Nat) (v : String) (y : V), discVars[i]? = some v → post[i]? = some y →
    (∀ it ∈ items, it.var = v → NewMode it.disc it.val y) ∧ ((∀ it ∈ items, it.var ≠ v) → pre[i]? = some y)

end Verif.Rst.Spec
