import Verif.Model.Agents
import Verif.Spec.MixCont

/-! What the traces of the example agents should be (C85, C86, C87). -/

set_option autoImplicit false

namespace Verif.Agents

/-- From `s`, the state is `s'` after time `h` of `y' = f(t, y)`. -/
def Flows (f : ℝ → List ℝ → List ℝ) (h : ℝ) (s s' : List ℝ) : Prop := ∃ y, Mix.Solves s.length h f y ∧ y 0 = s ∧ y h = s'

/-- The integrator is exact for `f` and steps of length `h`, from every state with `n` variables. -/
def Exact (integ : Integ) (n : Nat) (f : ℝ → List ℝ → List ℝ) (h : ℝ) : Prop := ∀ s, s.length = n → Flows f h s (integ f s h)

/-- A trace up to the time `bound`: it starts with `init` at time 0, has one row for each multiple of `step`, up to the first one that is not before `bound`; and
`Next` holds for each row and the next one. -/
structure Samples (Next : List ℝ → List ℝ → Prop) (init : List ℝ) (bound step : ℝ) (rows : List Row) : Prop where
  first : rows[0]? = some (0, init)
  times : ∀ (k : Nat) (row : Row), rows[k]? = some row → row.1 = k * step
  next : ∀ (k : Nat) (row row' : Row), rows[k]? = some row → rows[k + 1]? = some row' → Next row.2 row'.2
  reaches : ∃ row, rows.getLast? = some row ∧ bound ≤ row.1 ∧ ∀ (k : Nat) (row' : Row), rows[k]? = some row' → row' ≠ row → row'.1 < bound

/-- One step of a car: the control of the state is held for the time of the step; a negative speed at the end is replaced by 0. -/
def CarStep (action : List ℝ → Except String (ℝ × ℝ)) (h : ℝ) (s s' : List ℝ) : Prop :=
  ∃ u s1, action s = .ok u ∧ Flows (carDyn u) h s s1 ∧ s' = s1.set 3 (max 0 (s1.getD 3 0))

/-- The speed in a row. -/
def speedOf (row : Row) : ℝ := row.2.getD 3 0

/-- Classes and modes in which a car keeps its speed. -/
def Cruises : CarClass → String → Prop
  | .npc, _ => True
  | .weird, _ => True
  | .car _ _, mode => mode ∈ ["Normal", "SwitchLeft", "SwitchRight"]
  | .debounced _ _, mode => mode ∈ ["Normal", "SwitchLeft", "SwitchRight"]
  | .switch2 _ _, mode => mode ∈ ["Normal", "SwitchLeft", "SwitchRight", "SwitchLeft2", "SwitchRight2"]

/-- Cars with `speed` and `accel`. -/
def Driven (speed accel : ℝ) (c : CarClass) : Prop := c = .car speed accel ∨ c = .debounced speed accel ∨ c = .switch2 speed accel

/-- The line that a car follows in a mode: the number of lane widths to the left of the axis of its lane. -/
inductive Line : CarClass → String → ℝ → Prop
  | npc (mode : String) : Line .npc mode 0
  | keep {speed accel : ℝ} {c : CarClass} {mode : String} : Driven speed accel c → mode ∈ ["Normal", "Brake", "Accel"] → Line c mode 0
  | left {speed accel : ℝ} {c : CarClass} : Driven speed accel c → Line c "SwitchLeft" 1
  | right {speed accel : ℝ} {c : CarClass} : Driven speed accel c → Line c "SwitchRight" (-1)
  | left2 (speed accel : ℝ) : Line (.switch2 speed accel) "SwitchLeft2" 2
  | right2 (speed accel : ℝ) : Line (.switch2 speed accel) "SwitchRight2" (-2)

/-- `p` plus `s` in the direction `φ`. -/
noncomputable def ahead (p : ℝ × ℝ) (φ s : ℝ) : ℝ × ℝ := (p.1 + s * Real.cos φ, p.2 + s * Real.sin φ)

/-- The distance travelled up to row `k`, for an acceleration that is constant between rows. -/
noncomputable def travelled (step : ℝ) (rows : List Row) : Nat → ℝ
  | 0 => 0
  | k + 1 => travelled step rows k + step * (speedOf (rows.getD k (0, [])) + speedOf (rows.getD (k + 1) (0, []))) / 2

/-- From `p`, the lane runs straight in the direction `φ` for the length `L`: along this ray, the map shows the same lateral distance `lat` and the direction `φ` (up to whole turns). -/
structure StraightAhead (m : LaneMap) (lane : String) (p : ℝ × ℝ) (φ L lat : ℝ) : Prop where
  lateral : ∀ s, 0 ≤ s → s ≤ L → m.lateral lane (ahead p φ s) = .ok lat
  heading : ∀ s, 0 ≤ s → s ≤ L → ∃ k : ℤ, m.heading lane (ahead p φ s) = .ok (φ + 2 * Real.pi * k)

end Verif.Agents
