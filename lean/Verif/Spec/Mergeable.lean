import Verif.Spec.Angle

/-! Arrangements of angular bounds that are merged without loss, see C46. -/

set_option autoImplicit false

namespace Verif.Spec

variable {K : Type} [Field K] [LinearOrder K]

/-- The plain intervals of the bounds all lie on the positive side, or all on the negative side, or all share a point, or those on
the positive side share a point and the others lie on the negative side and share a point. -/
def Mergeable (p : K) (bounds : List (ABound K)) : Prop :=
  (∀ b ∈ bounds, ∀ iv ∈ b.parts p, 0 ≤ iv.1 ∧ 0 < iv.2) ∨
  (∀ b ∈ bounds, ∀ iv ∈ b.parts p, iv.1 < 0 ∧ iv.2 ≤ 0) ∨
  (∃ x, ∀ b ∈ bounds, ∀ iv ∈ b.parts p, iv.1 ≤ x ∧ x ≤ iv.2) ∨
  (∃ x z, ∀ b ∈ bounds, ∀ iv ∈ b.parts p,
    ((0 ≤ iv.1 ∧ 0 < iv.2) ∧ iv.1 ≤ x ∧ x ≤ iv.2) ∨ ((iv.1 < 0 ∧ iv.2 ≤ 0) ∧ iv.1 ≤ z ∧ z ≤ iv.2))

end Verif.Spec
