import Verif.Model.Falling
import Verif.Spec.Agents

/-! The motion of a ball under gravity (C118). -/

set_option autoImplicit false

namespace Verif.Falling.Spec
open Verif.Agents

/-- `odeint` calls the function: one that always raises makes it raise. -/
def Calls (odeint : OdeIntE) : Prop := ∀ f e init ts, ts ≠ [] → (∀ t s, f t s = .error e) → odeint f init ts = .error e

/-- `odeint` computes the same as another integrator for functions that do not raise. -/
def Agrees (odeint : OdeIntE) (ode : OdeInt) : Prop := ∀ f g init ts, (∀ t s, s.length = init.length → f t s = .ok (g t s)) → odeint f init ts = .ok (ode g init ts)

/-- A ball that falls freely for the time `h`: along the ground it moves with constant velocity, upwards with the acceleration `-g`. -/
noncomputable def falls (g h : ℝ) : List ℝ → List ℝ
  | [x, y, vx, vy] => [x + vx * h, y + vy * h - g / 2 * h ^ 2, vx, vy - g * h]
  | s => s

/-- The same with the first coordinate upwards. -/
noncomputable def fallsFirst (g h : ℝ) : List ℝ → List ℝ
  | [x, y, vx, vy] => [x + vx * h - g / 2 * h ^ 2, y + vy * h, vx - g * h, vy]
  | s => s

/-- From `s`, the state is `s'` after time `h` of the dynamics `f`, which do not raise on the way. -/
def FlowsE (f : ℝ → List ℝ → Except String (List ℝ)) (h : ℝ) (s s' : List ℝ) : Prop :=
  ∃ g : ℝ → List ℝ → List ℝ, (∀ t r, r.length = s.length → f t r = .ok (g t r)) ∧ Flows g h s s'

end Verif.Falling.Spec
