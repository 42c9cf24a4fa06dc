import Verif.Model.Static
import Verif.Spec.Plot
import Verif.Spec.Plot3d

/-! What the static pictures and the animation should show (C115). -/

set_option autoImplicit false

namespace Verif.Static.Spec
open Verif.Plot

variable {K : Type} [Field K] [LinearOrder K]

/-- A point in the area of a rectangle given by its lower left corner and its size. -/
def Covers (s : Patch K) (p : K × K) : Prop := s.anchor.1 ≤ p.1 ∧ p.1 ≤ s.anchor.1 + s.width ∧ s.anchor.2 ≤ p.2 ∧ p.2 ≤ s.anchor.2 + s.height

/-- A point between two corners. -/
def InBox (a b p : K × K) : Prop := a.1 ≤ p.1 ∧ p.1 ≤ b.1 ∧ a.2 ≤ p.2 ∧ p.2 ≤ b.2

/-- A point within the limits of the axes. -/
def InView (l : Lim K) (p : K × K) : Prop := l.1.1 ≤ p.1 ∧ p.1 ≤ l.1.2 ∧ l.2.1 ≤ p.2 ∧ p.2 ≤ l.2.2

/-- The rectangle `k` is the last one of a trace. -/
def LastRect (tr : List (List K)) (k : Nat) : Prop := tr.length = 2 * k + 2

/-- Some assertion is violated in a node. -/
def Hit (n : PNode K) : Prop := ∃ d a as, n.hits = some d ∧ (a, as) ∈ d

/-- The points of a polytope. -/
def InPoly (P : Poly K) (p : K × K × K) : Prop := ∀ e ∈ P, e.1.1 * p.1 + e.1.2.1 * p.2.1 + e.1.2.2 * p.2.2 ≤ e.2

/-- A point of a box in space. -/
def InBox3 (a b p : K × K × K) : Prop := (a.1 ≤ p.1 ∧ p.1 ≤ b.1) ∧ (a.2.1 ≤ p.2.1 ∧ p.2.1 ≤ b.2.1) ∧ (a.2.2 ≤ p.2.2 ∧ p.2.2 ≤ b.2.2)

/-- The row of a state `(time, x, y, direction, speed, ...)`. -/
def Reads (r : List K) (time x y θ v : K) : Prop := r[0]? = some time ∧ r[1]? = some x ∧ r[2]? = some y ∧ r[3]? = some θ ∧ r[4]? = some v

end Verif.Static.Spec
