import Verif.Spec.Star
import Mathlib.Algebra.Order.Group.Abs
import Mathlib.Algebra.Order.Ring.Int
import Mathlib.Data.Int.Cast.Basic

/-!
Mixed integer linear programs, and the diameter of a star set in the Manhattan distance (C92).
-/

set_option autoImplicit false

namespace Verif.Diam
open Finset Verif.Stars

variable {K : Type} [Field K] [LinearOrder K]

/-- `minimize c x` subject to `bl ≤ A x ≤ bu` and `lower ≤ x ≤ upper`, where some variables are integers; `none` is no bound. -/
structure Milp (K : Type) where
  nvars : Nat
  rows : Nat
  c : Nat → K
  isInt : Nat → Bool
  A : Nat → Nat → K
  bl : Nat → Option K
  bu : Nat → Option K
  lower : Nat → Option K
  upper : Nat → Option K

/-- `lo ≤ v ≤ hi` -/
def Within (lo hi : Option K) (v : K) : Prop := (∀ l, lo = some l → l ≤ v) ∧ (∀ u, hi = some u → v ≤ u)

/-- `x` satisfies the constraints. -/
structure Feasible (P : Milp K) (x : Nat → K) : Prop where
  rows : ∀ i < P.rows, Within (P.bl i) (P.bu i) (∑ j ∈ range P.nvars, P.A i j * x j)
  bounds : ∀ j < P.nvars, Within (P.lower j) (P.upper j) (x j)
  ints : ∀ j < P.nvars, P.isInt j = true → ∃ z : Int, x j = z

/-- The objective. -/
def cost (P : Milp K) (x : Nat → K) : K := ∑ j ∈ range P.nvars, P.c j * x j

/-- `f` is the least value of the objective. -/
def Optimal (P : Milp K) (f : K) : Prop := (∃ x, Feasible P x ∧ cost P x = f) ∧ ∀ x, Feasible P x → f ≤ cost P x

/-- The Manhattan distance of two points in dimension `n`. -/
def manhattan (n : Nat) (x y : Nat → K) : K := ∑ i ∈ range n, |x i - y i|

/-- `d` is the greatest distance between two points of a set. -/
def IsDiameter (n : Nat) (S : (Nat → K) → Prop) (d : K) : Prop :=
  (∃ x y, S x ∧ S y ∧ manhattan n x y = d) ∧ ∀ x y, S x → S y → manhattan n x y ≤ d

end Verif.Diam
