import Verif.Model.DrawMap
import Verif.Spec.Plot

/-! What the picture of a map should show (C109). -/

set_option autoImplicit false

namespace Verif.DrawMap.Spec
open Verif.Lane Verif.DrawMap

/-- The points of a straight segment: along it from its start to its end, and across it by at most half of its width. -/
noncomputable def Strip (start fin : ℝ × ℝ) (w : ℝ) : Set (ℝ × ℝ) :=
  {p | 0 ≤ ((Straight.new start fin).coords p).1 ∧ ((Straight.new start fin).coords p).1 ≤ (Straight.new start fin).length ∧
    |((Straight.new start fin).coords p).2| ≤ w / 2}

/-- The distance of two points. -/
noncomputable def far (a b : ℝ × ℝ) : ℝ := Real.sqrt ((a.1 - b.1) ^ 2 + (a.2 - b.2) ^ 2)

/-- A line through corners passes a point at a distance of at most `tol`. -/
def Passes (cs : List (ℝ × ℝ)) (p : ℝ × ℝ) (tol : ℝ) : Prop :=
  ∃ (i : Nat) (a b : ℝ × ℝ) (u : ℝ), cs[i]? = some a ∧ cs[i + 1]? = some b ∧ 0 ≤ u ∧ u ≤ 1 ∧
    far ((1 - u) * a.1 + u * b.1, (1 - u) * a.2 + u * b.2) p ≤ tol

/-- An arc that is passed through from its start to its end, less than 49 times round. -/
structure ProperArc (l : Circular) (w : ℝ) : Prop where
  radius : 0 < l.radius
  forward : 0 ≤ l.length
  short : l.length ≤ 99 * Real.pi * l.radius
  width : 0 ≤ w
  narrow : w / 2 ≤ l.radius

/-- The corners show a segment: a straight one fills exactly its area; both edges of a circular one are followed, all corners are on the edges, and the line is closed. -/
def Shows : Seg → List (ℝ × ℝ) → Prop
  | .straight start fin w, cs => start ≠ fin → 0 ≤ w → Plot.Spec.hull cs = Strip start fin w ∧ cs.head? = cs.getLast?
  | .circular l w, cs => ProperArc l w →
      (∀ s r : ℝ, 0 ≤ s → s ≤ l.length → r = w / 2 ∨ r = -(w / 2) → Passes cs (l.position s r) ((l.radius + w / 2) * (1 - Real.cos (l.length / l.radius / 198)))) ∧
      (∀ c ∈ cs, ∃ s r : ℝ, 0 ≤ s ∧ s ≤ l.length ∧ (r = w / 2 ∨ r = -(w / 2)) ∧ c = l.position s r) ∧ cs.head? = cs.getLast?
  | .unknown, _ => False

end Verif.DrawMap.Spec
