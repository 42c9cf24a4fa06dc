import Mathlib.Algebra.Order.Field.Basic
import Mathlib.Data.Rat.Floor
import Mathlib.Tactic.Linarith

/-!
Specification of angles. `p` is half a turn. An angle is represented by its value in `(-p, p]`, two
numbers denote the same direction when they differ by a whole number of turns.
-/

set_option autoImplicit false

namespace Verif.Spec

variable {K : Type} [Field K] [LinearOrder K]

/-- `y` is the value in `(-p, p]` of the direction of `x`. -/
def IsWrap (p x y : K) : Prop := (∃ k : ℤ, y = x + 2 * p * k) ∧ -p < y ∧ y ≤ p

/-- What the documentation calls a bound: a single interval, where a lower end above the upper end means
that the interval passes through half a turn, or several intervals. -/
inductive ABound (K : Type) where
  | one (lo hi : K)
  | many (l : List (K × K))
  deriving DecidableEq, Repr

/-- The plain intervals a bound consists of. -/
def ABound.parts (p : K) : ABound K → List (K × K)
  | .one lo hi => if lo > hi then [(lo, p), (-p, hi)] else [(lo, hi)]
  | .many l => l

/-- `y` lies in one of the intervals. -/
def InSome (l : List (K × K)) (y : K) : Prop := ∃ iv ∈ l, iv.1 ≤ y ∧ y ≤ iv.2

/-- `y` lies in the bound. -/
def ABound.Has (p : K) (b : ABound K) (y : K) : Prop := InSome (b.parts p) y

end Verif.Spec
