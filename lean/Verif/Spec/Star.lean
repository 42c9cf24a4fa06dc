import Mathlib.Algebra.BigOperators.Group.Finset.Basic
import Mathlib.Algebra.Order.Field.Basic

/-!
What a star set is (C42-C44, C61, C62): the points `center + α 0 * v 0 + … + α (m - 1) * v (m - 1)` with coefficients that satisfy the
inequalities `C α ≤ g`.
-/

set_option autoImplicit false

namespace Verif.Stars

variable {K : Type} [Field K] [LinearOrder K]

open Finset

/-- `C α ≤ g`, for `p` inequalities over `m` coefficients. -/
def Sat (p m : Nat) (C : Nat → Nat → K) (g : Nat → K) (α : Nat → K) : Prop := ∀ i < p, ∑ j ∈ range m, C i j * α j ≤ g i

/-- `x` is a point of the star set with a center in dimension `n`, `m` basis vectors and `p` inequalities. -/
def Point (n m p : Nat) (center : Nat → K) (basis C : Nat → Nat → K) (g x : Nat → K) : Prop :=
  ∃ α : Nat → K, Sat p m C g α ∧ ∀ d < n, x d = center d + ∑ j ∈ range m, α j * basis j d

/-- The map `x ↦ M x + b` between vectors of length `n`. -/
def affine (n : Nat) (M : Nat → Nat → K) (b : Nat → K) (x : Nat → K) (d : Nat) : K := b d + ∑ k ∈ range n, M d k * x k

/-- `x` is in the half space `H x ≤ r`. -/
def InHalf (n : Nat) (H : Nat → K) (r : K) (x : Nat → K) : Prop := ∑ d ∈ range n, H d * x d ≤ r

/-- `x` is in the rectangle. -/
def InBox (n : Nat) (lo hi x : Nat → K) : Prop := ∀ d < n, lo d ≤ x d ∧ x d ≤ hi d

end Verif.Stars
