import Mathlib.Order.Defs.LinearOrder
import Mathlib.Data.List.Basic

/-!
Axis-parallel rectangles given by their lower and upper corner, and which points and rectangles they contain.
-/

set_option autoImplicit false

namespace Verif.Rect.Spec

variable {K : Type} [LE K]

/-- The point `p` lies in the rectangle with corners `r.1`, `r.2`: it has as many coordinates, and each is between those of the
corners. -/
def Inside (p : List K) (r : List K × List K) : Prop :=
  List.Forall₂ (fun (a b : K) => a ≤ b) r.1 p ∧ List.Forall₂ (fun (a b : K) => a ≤ b) p r.2

/-- A rectangle with `d` coordinates; it has a point. -/
def Proper (d : Nat) (r : List K × List K) : Prop := r.1.length = d ∧ List.Forall₂ (fun (a b : K) => a ≤ b) r.1 r.2

/-- The rectangles meet at most in a face: for every common point there is a coordinate in which one rectangle ends and the other begins,
and in which the rectangle is not flat. -/
def Touch (s t : List K × List K) : Prop := ∀ p, Inside p s → Inside p t → ∃ (i : Nat) (x : K), p[i]? = some x ∧
  ((s.2[i]? = some x ∧ t.1[i]? = some x) ∨ (t.2[i]? = some x ∧ s.1[i]? = some x)) ∧ s.1[i]? ≠ s.2[i]?

end Verif.Rect.Spec
