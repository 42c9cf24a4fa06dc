import Verif.Spec.Dryvr
import Mathlib.Analysis.Convex.Hull
import Mathlib.Data.Real.Basic

/-! What is assumed of the computation of convex hulls in the plane (C40, method `GLOBAL`), and when a tube contains another one. -/

set_option autoImplicit false

namespace Verif.Dry

/-- Twice the area of the triangle `a b c`, positive if it is counterclockwise. -/
def turn (a b c : ℝ × ℝ) : ℝ := (b.1 - a.1) * (c.2 - a.2) - (b.2 - a.2) * (c.1 - a.1)

/-- `b` follows `a` in the list, or `a` is last and `b` is first. -/
def Follows (vs : List Nat) (a b : Nat) : Prop :=
  (∃ i, vs[i]? = some a ∧ vs[i + 1]? = some b) ∨ (vs.getLast? = some a ∧ vs.head? = some b)

/-- `vs` are the indices of the vertices of the convex hull of the points, counterclockwise; the points do not all lie on a line. -/
structure IsHull (pts : List (ℝ × ℝ)) (vs : List Nat) : Prop where
  index : ∀ i ∈ vs, i < pts.length
  spans : ∀ p ∈ pts, p ∈ convexHull ℝ {q | ∃ i ∈ vs, pts[i]? = some q}
  left  : ∀ a b p q, Follows vs a b → pts[a]? = some p → pts[b]? = some q → p ≠ q ∧ ∀ x ∈ pts, 0 ≤ turn p q x
  flat  : ∃ p q x, p ∈ pts ∧ q ∈ pts ∧ x ∈ pts ∧ turn p q x ≠ 0

/-- The rectangle from `l'` to `u'` is part of the rectangle from `l` to `u`. -/
def PartOf (l' u' l u : List ℝ) : Prop := List.Forall₂ (· ≤ ·) l l' ∧ List.Forall₂ (· ≤ ·) u' u

end Verif.Dry
