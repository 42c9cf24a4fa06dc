import Verif.Model.Lane
import Mathlib.Algebra.Order.Floor.Semiring
import Mathlib.Analysis.SpecialFunctions.Trigonometric.Basic

/-!
The example agents of the library, verse/agents/base_agent.py and verse/agents/example_agent/*.py: their dynamics and the traces that `TC_simulate` makes.

Simplifications: numbers are real numbers; the integrators of scipy are parameters; rounding of sample times is a parameter; the map is given by its answers to the three queries.
-/

set_option autoImplicit false

namespace Verif.Agents

open Verif.Lane (arctan2 wrapToPi)

/-- A row of a trace: the time and the state. -/
abbrev Row := ℝ × List ℝ

/-- `r = ode(f); r.set_initial_value(init); r.integrate(r.t + h)`: the state after `h`, from `init` at time 0. -/
abbrev Integ := (ℝ → List ℝ → List ℝ) → List ℝ → ℝ → List ℝ

/-- `odeint(f, y0, t)`, base_agent.py:90: the states at the times. -/
abbrev OdeInt := (ℝ → List ℝ → List ℝ) → List ℝ → List ℝ → List (List ℝ)

/-- `int(np.ceil(time_bound / time_step))`, for `time_bound ≥ 0`. car_agent.py:54, robot_agent.py:25, sign_agent.py:12, origin_agent.py:29. -/
noncomputable def numPoints (bound step : ℝ) : Nat := ⌈bound / step⌉₊

/-- The loop of `TC_simulate`, car_agent.py:58-69, robot_agent.py:30-35, origin_agent.py:34-39: `i` is the loop variable, `n` the number of iterations that are left. -/
def loop (next : List ℝ → Except String (List ℝ)) (time : Nat → ℝ) : Nat → Nat → List ℝ → Except String (List Row)
  | _, 0, _ => .ok []
  | i, n + 1, init => (next init).bind fun res => (loop next time (i + 1) n res).map fun rows => (time i, res) :: rows

/-- `TC_simulate` of the agents that step by themselves: the first row is the initial state, at time 0. -/
noncomputable def stepped (next : List ℝ → Except String (List ℝ)) (time : Nat → ℝ) (init : List ℝ) (bound step : ℝ) : Except String (List Row) :=
  (loop next time 0 (numPoints bound step) init).map fun rows => (0, init) :: rows

/-- `BaseAgent.TC_simulate`, base_agent.py:88-93: `np.arange(0, time_horizon + time_step / 2, time_step)` has `ceil` of the quotient elements. -/
noncomputable def baseTrace (odeint : OdeInt) (rnd : ℝ → ℝ) (f : ℝ → List ℝ → List ℝ) (init : List ℝ) (horizon step : ℝ) : List Row :=
  let t := (List.range ⌈(horizon + step / 2) / step⌉₊).map fun (k : Nat) => rnd ((k : ℝ) * step)
  t.zip (odeint f init t)

/-! ### Cars -/

/-- What a car asks the map: `get_lane_width`, `get_lateral_distance`, `get_lane_heading` (lane_map.py:61-97). -/
structure LaneMap where
  width : String → Except String ℝ
  lateral : String → ℝ × ℝ → Except String ℝ
  heading : String → ℝ × ℝ → Except String ℝ

/-- `np.clip(steering, -0.61, 0.61)`, car_agent.py:46 and 121. -/
noncomputable def clip (x : ℝ) : ℝ := max (-(61 / 100)) (min x (61 / 100))

/-- `NPCAgent.dynamics`, car_agent.py:24-34, `CarAgent.dynamics`, 89-96, and the ones of `CarAgentDebounced`, 192-193, and `CarAgentSwitch2`, 223-224: the four derivatives, and `1` for a fifth variable. -/
noncomputable def carDyn (u : ℝ × ℝ) (_t : ℝ) (state : List ℝ) : List ℝ :=
  let theta := state.getD 2 0
  let v := state.getD 3 0
  let dots := [v * Real.cos (theta + u.1), v * Real.sin (theta + u.1), v / (175 / 100) * Real.sin u.1, u.2]
  if state.length = 4 then dots else dots ++ [1]

/-- `NPCAgent.action_handler`, car_agent.py:36-48. -/
noncomputable def npcAction (m : LaneMap) (mode : List String) (state : List ℝ) : Except String (ℝ × ℝ) :=
  match state with
  | x :: y :: theta :: v :: _ =>
    match mode with
    | _ :: lane :: _ =>
      (m.lateral lane (x, y)).bind fun lat =>
      (m.heading lane (x, y)).map fun heading =>
        (clip (heading - theta + arctan2 (45 / 100 * -lat) v), 0)
    | _ => .error "IndexError"
  | _ => .error "ValueError"

/-- Lines 102-116 of car_agent.py: what the mode adds to `d`, in lane widths, and the acceleration. -/
noncomputable def carMode (speed accel : ℝ) (mode : String) (v : ℝ) : Except String (ℝ × ℝ) :=
  if mode = "Normal" ∨ mode = "Stop" then .ok (0, 0)
  else if mode = "SwitchLeft" then .ok (1, 0)
  else if mode = "SwitchRight" then .ok (-1, 0)
  else if mode = "Brake" then .ok (0, max (-accel) (-v))
  else if mode = "Accel" then .ok (0, min accel (speed - v))
  else .error "ValueError"

/-- Lines 230-248: the same for `CarAgentSwitch2`. -/
noncomputable def carMode2 (speed accel : ℝ) (mode : String) (v : ℝ) : Except String (ℝ × ℝ) :=
  if mode = "Normal" ∨ mode = "Stop" then .ok (0, 0)
  else if mode = "SwitchLeft" then .ok (1, 0)
  else if mode = "SwitchRight" then .ok (-1, 0)
  else if mode = "SwitchLeft2" then .ok (2, 0)
  else if mode = "SwitchRight2" then .ok (-2, 0)
  else if mode = "Brake" then .ok (0, max (-accel) (-v))
  else if mode = "Accel" then .ok (0, min accel (speed - v))
  else .error "ValueError"

/-- The rest of `CarAgent.action_handler`, 98-122, and of `CarAgentSwitch2.action_handler`, 226-254. -/
noncomputable def carControl (ofMode : String → ℝ → Except String (ℝ × ℝ)) (m : LaneMap) (mode : List String) (x y theta v : ℝ) : Except String (ℝ × ℝ) :=
  match mode with
  | [vmode, lane] =>
    (m.width lane).bind fun width =>
    (m.lateral lane (x, y)).bind fun lat =>
    (ofMode vmode v).bind fun da =>
    (m.heading lane (x, y)).map fun heading =>
      (clip (wrapToPi (heading - theta) + arctan2 (45 / 100 * (-lat + da.1 * width)) v), da.2)
  | _ => .error "ValueError"

/-- `CarAgent.action_handler`, 98-122: exactly four state variables. -/
noncomputable def carAction (speed accel : ℝ) (m : LaneMap) (mode : List String) (state : List ℝ) : Except String (ℝ × ℝ) :=
  match state with
  | [x, y, theta, v] => carControl (carMode speed accel) m mode x y theta v
  | _ => .error "ValueError"

/-- `CarAgentDebounced.action_handler`, 195-198: the first four of the state variables. -/
noncomputable def debouncedAction (speed accel : ℝ) (m : LaneMap) (mode : List String) (state : List ℝ) : Except String (ℝ × ℝ) :=
  carAction speed accel m mode (state.take 4)

/-- `CarAgentSwitch2.action_handler`, 226-254: exactly five state variables. -/
noncomputable def switch2Action (speed accel : ℝ) (m : LaneMap) (mode : List String) (state : List ℝ) : Except String (ℝ × ℝ) :=
  match state with
  | [x, y, theta, v, _] => carControl (carMode2 speed accel) m mode x y theta v
  | _ => .error "ValueError"

/-- `WeirdCarAgent._action_handler`, 157-168, with `gain = 0.2` and `thres = 0.8`. -/
noncomputable def weirdAction (mode : List String) (state : List ℝ) : Except String (ℝ × ℝ) :=
  match mode, state[2]? with
  | vmode :: _, some theta =>
    if |theta| > 8 / 10 then .ok (0, 0)
    else if vmode = "SwitchLeft" ∧ theta ≥ 0 then .ok (2 / 10, 0)
    else if vmode = "SwitchRight" ∧ theta ≤ 0 then .ok (-(2 / 10), 0)
    else .ok (0, 0)
  | _, _ => .error "IndexError"

/-- The classes of cars in car_agent.py, with `speed` and `accel` (lines 72-86). -/
inductive CarClass where
  | npc
  | car (speed accel : ℝ)
  | weird
  | debounced (speed accel : ℝ)
  | switch2 (speed accel : ℝ)

/-- `action_handler` of each class. -/
noncomputable def CarClass.action : CarClass → LaneMap → List String → List ℝ → Except String (ℝ × ℝ)
  | .npc => npcAction
  | .car speed accel => carAction speed accel
  | .weird => fun _ => weirdAction
  | .debounced speed accel => debouncedAction speed accel
  | .switch2 speed accel => switch2Action speed accel

/-- `if init[3] < 0: init[3] = 0`, car_agent.py:64-65 and 138-139. -/
noncomputable def noReverse (state : List ℝ) : List ℝ := if state.getD 3 0 < 0 then state.set 3 0 else state

/-- The body of the loop, car_agent.py:58-65 and 132-139. -/
noncomputable def carNext (integ : Integ) (action : List ℝ → Except String (ℝ × ℝ)) (step : ℝ) (init : List ℝ) : Except String (List ℝ) :=
  (action init).map fun u => noReverse (integ (carDyn u) init step)

/-- `TC_simulate` of the cars, car_agent.py:50-69 and 124-143. -/
noncomputable def carTrace (integ : Integ) (action : List ℝ → Except String (ℝ × ℝ)) (init : List ℝ) (bound step : ℝ) : Except String (List Row) :=
  stepped (carNext integ action step) (fun i => step * (i + 1)) init bound step

/-! ### Other agents -/

/-- The times of robot_agent.py:26 and 35 and of origin_agent.py. -/
def otherTime (rnd : ℝ → ℝ) (step : ℝ) (i : Nat) : ℝ := rnd (i * step) + step

/-- `RobotAgent`, robot_agent.py:14-37. -/
noncomputable def robotTrace (integ : Integ) (rnd : ℝ → ℝ) (init : List ℝ) (bound step : ℝ) : Except String (List Row) :=
  stepped (fun s => .ok (integ (fun _ _ => [1]) s step)) (otherTime rnd step) init bound step

/-- `vanderpol_agent.dynamics`, origin_agent.py:16-23. -/
def vanderpolDyn (_t : ℝ) (state : List ℝ) : List ℝ :=
  let x := state.getD 0 0
  let y := state.getD 1 0
  [y, (1 - x ^ 2) * y - x]

/-- `vanderpol_agent.TC_simulate`, origin_agent.py:25-40. -/
noncomputable def vanderpolTrace (integ : Integ) (rnd : ℝ → ℝ) (init : List ℝ) (bound step : ℝ) : Except String (List Row) :=
  stepped (fun s => .ok (integ vanderpolDyn s step)) (otherTime rnd step) init bound step

/-- `thermo_agent.dynamics`, origin_agent.py:48-57. -/
def thermoDyn (rate : ℝ) (_t : ℝ) (state : List ℝ) : List ℝ := [state.getD 0 0 * rate, 1, 1]

/-- `thermo_agent.action_handler`, origin_agent.py:59-67. -/
noncomputable def thermoRate (mode : List String) : Except String ℝ :=
  match mode with
  | [] => .error "IndexError"
  | m :: _ => if m = "ON" then .ok (1 / 10) else if m = "OFF" then .ok (-(1 / 10)) else .error "ValueError"

/-- `thermo_agent.TC_simulate`, origin_agent.py:69-86. -/
noncomputable def thermoTrace (integ : Integ) (rnd : ℝ → ℝ) (mode : List String) (init : List ℝ) (bound step : ℝ) : Except String (List Row) :=
  stepped (fun s => (thermoRate mode).map fun rate => integ (thermoDyn rate) s step) (otherTime rnd step) init bound step

/-- `craft_agent.TC_simulate`, origin_agent.py:152-178; the three dynamics (94-150) are a parameter. -/
noncomputable def craftTrace (integ : Integ) (rnd : ℝ → ℝ) (dyn : String → Option (ℝ → List ℝ → List ℝ)) (mode : List String) (init : List ℝ) (bound step : ℝ) :
    Except String (List Row) :=
  stepped (fun s => match mode with
    | [] => .error "IndexError"
    | m :: _ => match dyn m with
      | some f => .ok (integ f s step)
      | none => .error "ValueError") (otherTime rnd step) init bound step

/-- `SignAgent.TC_simulate`, sign_agent.py:11-15: the state does not change. -/
noncomputable def signTrace (init : List ℝ) (horizon step : ℝ) : List Row :=
  (0, init) :: (List.range (numPoints horizon step)).map fun (i : Nat) => ((i : ℝ) * step + step, init)

/-- `BallAgent.dynamics`, ball_agent.py:25-32. -/
def ballDyn (_t : ℝ) (state : List ℝ) : List ℝ := [state.getD 2 0, state.getD 3 0, 0, 0]

/-- `LineAgent.dynamics`, line_agent.py:25-30. -/
def lineDyn (_t : ℝ) (state : List ℝ) : List ℝ := [state.getD 1 0, 0]

end Verif.Agents
