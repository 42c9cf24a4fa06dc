import Mathlib.Algebra.Order.Field.Basic

set_option autoImplicit false

namespace Verif.Lane.Spec

/-- The point lies in the rectangle with lower corner `lo` and upper corner `hi`. -/
def InRect {K : Type} [LE K] (lo hi p : K × K) : Prop := lo.1 ≤ p.1 ∧ p.1 ≤ hi.1 ∧ lo.2 ≤ p.2 ∧ p.2 ≤ hi.2

/-- The interval contains the value. -/
def InIv {K : Type} [LE K] (iv : K × K) (x : K) : Prop := iv.1 ≤ x ∧ x ≤ iv.2

/-- The interval is the range of a function over a rectangle: it contains all values, and its end points are values. -/
def IsRange {K : Type} [LE K] (iv : K × K) (lo hi : K × K) (f : K × K → K) : Prop :=
  (∀ p, InRect lo hi p → InIv iv (f p)) ∧ (∃ p, InRect lo hi p ∧ f p = iv.1) ∧ (∃ p, InRect lo hi p ∧ f p = iv.2)

end Verif.Lane.Spec
