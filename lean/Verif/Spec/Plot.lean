import Verif.Model.Plot
import Mathlib.Order.Basic
import Mathlib.Analysis.Convex.Hull

/-! What a plot should show (C89, C90). -/

set_option autoImplicit false

namespace Verif.Plot.Spec

variable {K : Type}

/-- The points given for a shape. -/
def corners : Shape K → List (K × K)
  | .marker p => [p]
  | .filled vs => vs
  | .line ps => ps

/-- Rows `2k` and `2k + 1` of a tube are the lower and upper corner of its `k`-th rectangle. -/
def Rect (tr : List (List K)) (k : Nat) (lo hi : List K) : Prop := tr[2 * k]? = some lo ∧ tr[2 * k + 1]? = some hi

/-- The point of a row in the dimensions `x` and `y`. -/
def At (x y : Nat) (r : List K) (p : K × K) : Prop := r[x]? = some p.1 ∧ r[y]? = some p.2

/-- The closed polygon around a rectangle. -/
def outline (lo hi : K × K) : List (K × K) := [(lo.1, lo.2), (hi.1, lo.2), (hi.1, hi.2), (lo.1, hi.2), (lo.1, lo.2)]

/-- All rows but the last show the point `p`. -/
def Still (x y : Nat) (tr : List (List K)) (p : K × K) : Prop := ∀ r ∈ tr.dropLast, At x y r p

/-- A value is within the range of an axis. -/
def Visible [LE K] (axis : Option (K × K)) (v : K) : Prop := ∃ a b : K, axis = some (a, b) ∧ a ≤ v ∧ v ≤ b

/-- A region that surely contains everything that is drawn for a polygon or line with these corners. -/
noncomputable def hull [Field K] [LinearOrder K] [IsStrictOrderedRing K] (vs : List (K × K)) : Set (K × K) := convexHull K {v | v ∈ vs}

/-- A point that lies in none of the shapes of a figure. -/
def Unseen [Field K] [LinearOrder K] [IsStrictOrderedRing K] (fig : Figure K) (p : K × K) : Prop := ∀ s ∈ fig.shapes, p ∉ hull (corners s.2)

/-- A time is not after the end of a slice; without an end no time is. -/
def Before [LE K] (tu : Option K) (v : K) : Prop := ∀ u, tu = some u → v ≤ u

/-- Something is shown in the frame of a time, for an agent. -/
def Shown [DecidableEq K] {A : Type} (fr : Frames K A) (time : K) (aid : String) (a : A) : Prop :=
  ∃ d l, Dict.get? fr time = some d ∧ Dict.get? d aid = some l ∧ a ∈ l

end Verif.Plot.Spec
