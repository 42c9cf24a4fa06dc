import Verif.Model.Video
import Verif.Spec.Plot

/-! What a video of reachtubes should show (C108). -/

set_option autoImplicit false

namespace Verif.Plot.Spec

open Verif.Spec Verif.ATree

variable {K : Type}

/-- A rectangle of the tubes of an agent in a tree, and the time at which it begins. -/
def InTree (t : RTree (PNode K)) (a : String) (lo hi : List K) (time : K) : Prop :=
  ∃ u k tr j, RTree.Below t u k ∧ (a, tr) ∈ u.label.trace ∧ Rect tr j lo hi ∧ lo[0]? = some time

/-- In frame `k` of a page in HTML a rectangle of an agent is visible. -/
def OnPage (v : Video K) (k : Nat) (a : String) (lo hi : List K) : Prop :=
  ∃ (i : Nat) (vis : List Bool), v.data[i]? = some (a, (lo, hi)) ∧ v.visible[k]? = some vis ∧ vis[i]? = some true

/-- Frame `k` of a GIF or MP4 is painted over the frames before it; a rectangle of an agent has been painted. -/
def Painted (v : Video K) (k : Nat) (a : String) (lo hi : List K) : Prop :=
  ∃ (i j : Nat) (new : List Nat), v.data[i]? = some (a, (lo, hi)) ∧ j ≤ k ∧ v.painted[j]? = some new ∧ i ∈ new

/-- A point between two corners of a rectangle. -/
def Between [LE K] (a b p : K × K) : Prop := ((a.1 ≤ p.1 ∧ p.1 ≤ b.1) ∨ (b.1 ≤ p.1 ∧ p.1 ≤ a.1)) ∧ ((a.2 ≤ p.2 ∧ p.2 ≤ b.2) ∨ (b.2 ≤ p.2 ∧ p.2 ≤ a.2))

/-- A pixel in a rectangle of pixels (left, top, right, bottom). -/
def Covers (r : Int × Int × Int × Int) (p : Int × Int) : Prop := r.1 ≤ p.1 ∧ p.1 ≤ r.2.2.1 ∧ r.2.1 ≤ p.2 ∧ p.2 ≤ r.2.2.2

/-- Rounding to integers. -/
structure Rounds [LE K] [IntCast K] (rd : K → Int) : Prop where
  mono : ∀ a b : K, a ≤ b → rd a ≤ rd b
  int : ∀ n : Int, rd (n : K) = n

end Verif.Plot.Spec
