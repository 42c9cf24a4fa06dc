import Verif.Model.Plot3d
import Verif.Spec.Plot

/-! What a plot in space should show (C112). -/

set_option autoImplicit false

namespace Verif.Plot3d.Spec

variable {K : Type} [Field K] [LinearOrder K]

/-- The point of a row in the dimensions `x`, `y` and `z`. -/
def At (x y z : Nat) (r : List K) (p : K × K × K) : Prop := r[x]? = some p.1 ∧ r[y]? = some p.2.1 ∧ r[z]? = some p.2.2

/-- A value between two others. -/
def Between (a b v : K) : Prop := (a ≤ v ∧ v ≤ b) ∨ (b ≤ v ∧ v ≤ a)

/-- One of two values. -/
def Either (a b v : K) : Prop := v = a ∨ v = b

/-- The points of the surface of the box with the opposite corners `a` and `b`: in the box, and on one of its six faces. -/
def Surface (a b p : K × K × K) : Prop :=
  (Between a.1 b.1 p.1 ∧ Between a.2.1 b.2.1 p.2.1 ∧ Between a.2.2 b.2.2 p.2.2) ∧ (Either a.1 b.1 p.1 ∨ Either a.2.1 b.2.1 p.2.1 ∨ Either a.2.2 b.2.2 p.2.2)

/-- The points of the twelve edges: on two faces. -/
def Edges (a b p : K × K × K) : Prop :=
  (Between a.1 b.1 p.1 ∧ Either a.2.1 b.2.1 p.2.1 ∧ Either a.2.2 b.2.2 p.2.2) ∨ (Either a.1 b.1 p.1 ∧ Between a.2.1 b.2.1 p.2.1 ∧ Either a.2.2 b.2.2 p.2.2) ∨
    (Either a.1 b.1 p.1 ∧ Either a.2.1 b.2.1 p.2.1 ∧ Between a.2.2 b.2.2 p.2.2)

/-- A point of a triangle. -/
def InTriangle (a b c p : K × K × K) : Prop :=
  ∃ u v w : K, 0 ≤ u ∧ 0 ≤ v ∧ 0 ≤ w ∧ u + v + w = 1 ∧ p = (u * a.1 + v * b.1 + w * c.1, u * a.2.1 + v * b.2.1 + w * c.2.1, u * a.2.2 + v * b.2.2 + w * c.2.2)

/-- A point of the surface a mesh shows. -/
def OnMesh (vs : List (K × K × K)) (tris : List (Nat × Nat × Nat)) (p : K × K × K) : Prop :=
  ∃ t ∈ tris, ∃ a b c, vs[t.1]? = some a ∧ vs[t.2.1]? = some b ∧ vs[t.2.2]? = some c ∧ InTriangle a b c p

/-- A point of a line through given points. -/
def OnLine (ps : List (K × K × K)) (p : K × K × K) : Prop :=
  ∃ m a b, ps[m]? = some a ∧ ps[m + 1]? = some b ∧ ∃ s : K, 0 ≤ s ∧ s ≤ 1 ∧
    p = (a.1 + s * (b.1 - a.1), a.2.1 + s * (b.2.1 - a.2.1), a.2.2 + s * (b.2.2 - a.2.2))

/-- A point of a face with four corners. -/
def OnFace (f : (K × K × K) × (K × K × K) × (K × K × K) × (K × K × K)) (p : K × K × K) : Prop :=
  ∃ u v w o : K, 0 ≤ u ∧ 0 ≤ v ∧ 0 ≤ w ∧ 0 ≤ o ∧ u + v + w + o = 1 ∧ p = (u * f.1.1 + v * f.2.1.1 + w * f.2.2.1.1 + o * f.2.2.2.1,
    u * f.1.2.1 + v * f.2.1.2.1 + w * f.2.2.1.2.1 + o * f.2.2.2.2.1, u * f.1.2.2 + v * f.2.1.2.2 + w * f.2.2.1.2.2 + o * f.2.2.2.2.2)

/-- What a figure shows of a tube of an agent: the points on the meshes drawn for it. -/
def Drawn (items : List (String × Item K)) (a : String) (p : K × K × K) : Prop := ∃ vs tris, (a, Item.mesh vs tris) ∈ items ∧ OnMesh vs tris p

end Verif.Plot3d.Spec
