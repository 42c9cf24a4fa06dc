import Verif.Model.Quadrotor
import Mathlib.Analysis.Calculus.Deriv.Basic

/-! What is meant by a flight of the quadrotor, and what is assumed of the integrator and of the rounding (C102). -/

set_option autoImplicit false

namespace Verif.Quad.Spec
open Verif.Lane3d Verif.Quad

/-- `v` is the derivative of a curve in space. -/
def Deriv3 (f : ℝ → V3) (v : V3) (t : ℝ) : Prop :=
  HasDerivAt (fun t => (f t).x) v.x t ∧ HasDerivAt (fun t => (f t).y) v.y t ∧ HasDerivAt (fun t => (f t).z) v.z t

/-- Integrating gives the end of a solution of the differential equation. -/
def Ideal (integ : Input → ℝ → S9 → S9) : Prop :=
  ∀ u dt s, ∃ c : ℝ → S9, c 0 = s ∧ c dt = integ u dt s ∧
    ∀ t, Deriv3 (fun t => (c t).ref) (dynamics u (c t)).ref t ∧ Deriv3 (fun t => (c t).pos) (dynamics u (c t)).pos t ∧
      Deriv3 (fun t => (c t).vel) (dynamics u (c t)).vel t

/-- The settings that the theorems are about: the network rates eight inputs, the box has three sides, `round(·, 4)` leaves multiples of the time
step alone, and the time between waypoints is `m` steps. -/
structure Regular (Q : Craft) (dt : ℝ) (m : Nat) : Prop where
  net : ∀ x, (Q.net x).length = 8
  box : 3 ≤ Q.box.length
  grid : ∀ k : ℤ, Q.rnd4 (k * dt) = k * dt
  limit : Q.limit = m * dt
  some : 1 ≤ m
  pos : 0 < dt

/-- The acceleration of one of the eight inputs: gravity times the tangent of the angle of 0.1 to either side, and thrust minus gravity, which is 2
upwards or downwards. -/
def Acceleration (a : V3) : Prop :=
  (a.x = 9.81 * Real.tan 0.1 ∨ a.x = -(9.81 * Real.tan 0.1)) ∧ (a.y = 9.81 * Real.tan 0.1 ∨ a.y = -(9.81 * Real.tan 0.1)) ∧ (a.z = 2 ∨ a.z = -2)

/-- Uniform acceleration `a` for the time `dt`. -/
def Accelerated (dt : ℝ) (a : V3) (p q : Row) : Prop :=
  q.vel = p.vel.add (V3.smul dt a) ∧ q.pos = (p.pos.add (V3.smul dt p.vel)).add (V3.smul (dt ^ 2 / 2) a)

/-- The point that is to be reached after `i` steps on the way from the start to the end of a waypoint, which takes the time `limit`. -/
noncomputable def reference (limit dt : ℝ) (w : V3 × V3) (i : Nat) : V3 := w.1.add (V3.smul (i * dt / limit) (w.2.sub w.1))

/-- What the network is asked: a fifth of the distance to the point to be reached, in each direction, and a tenth of the difference from the velocity
`1 / limit * (w.2 - w.1)` of that point. -/
noncomputable def question (limit dt : ℝ) (w : V3 × V3) (i : Nat) (p : Row) : List ℝ :=
  let r := reference limit dt w i
  [(p.pos.x - r.x) / 5, (p.pos.y - r.y) / 5, (p.pos.z - r.z) / 5, (p.vel.x - (w.2.x - w.1.x) / limit) / 10, (p.vel.y - (w.2.y - w.1.y) / limit) / 10,
    (p.vel.z - (w.2.z - w.1.z) / limit) / 10]

/-- The step from `p` to `q`, the `i`-th on the way along the waypoint `w`: uniform acceleration by the input that the network rates best. -/
def Steered (Q : Craft) (dt : ℝ) (w : V3 × V3) (i : Nat) (p q : Row) : Prop :=
  ∃ (n : Nat) (u : ℝ × ℝ × ℝ) (best : ℝ), inputs[n]? = some u ∧ (Q.net (question Q.limit dt w i p))[n]? = some best ∧
    (∀ x ∈ Q.net (question Q.limit dt w i p), x ≤ best) ∧
    Accelerated dt ⟨9.81 * Real.tan u.1, -(9.81 * Real.tan u.2.1), u.2.2 - 9.81⟩ p q

/-- Each waypoint starts where the one before ends. -/
def Linked (ws : List (V3 × V3)) : Prop := ∀ (k : Nat) (a b : V3 × V3), ws[k]? = some a → ws[k + 1]? = some b → b.1 = a.2

end Verif.Quad.Spec
