import Verif.Model.Map3d
import Mathlib.Analysis.SpecialFunctions.Trigonometric.Basic

/-!
`verse/agents/example_agent/quadrotor_agent.py`: the quadrotor that follows waypoints of a 3D map.

Simplifications
* The neural network of the controller is a function of the six inputs (parameter `net`); `round(·, 4)` is the parameter `rnd4`; one call of the
  integrator for given inputs is the parameter `integ`.
* The loops run for at most `fuel` rounds; `.error "loop"` stands for a loop that has not ended by then.
* `.error` otherwise stands for an exception.
-/

set_option autoImplicit false

namespace Verif.Quad
open Verif.Lane3d

/-- The nine variables of the dynamics: the reference, the position and the velocity. -/
structure S9 where
  ref : V3
  pos : V3
  vel : V3

/-- The inputs `u` of the dynamics, quadrotor_agent.py:144: two angles and a thrust, the velocity of the reference and a rotation. The last entry `ddf`
is not used by the dynamics. -/
structure Input where
  u1 : ℝ
  u2 : ℝ
  u3 : ℝ
  b : V3
  sc : ℝ

/-- `dynamics`, quadrotor_agent.py:34-52: the derivatives of the nine variables. -/
noncomputable def dynamics (u : Input) (s : S9) : S9 :=
  let sc := -1 * u.sc
  let dvx := 9.81 * Real.sin u.u1 / Real.cos u.u1
  let dvy := -9.81 * Real.sin u.u2 / Real.cos u.u2
  { ref := u.b
    pos := s.vel
    vel := ⟨dvx * Real.cos sc - dvy * Real.sin sc, dvx * Real.sin sc + dvy * Real.cos sc, u.u3 - 9.81⟩ }

/-- `control_input_list`, quadrotor_agent.py:92-101. -/
noncomputable def inputs : List (ℝ × ℝ × ℝ) :=
  [(-0.1, -0.1, 7.81), (-0.1, -0.1, 11.81), (-0.1, 0.1, 7.81), (-0.1, 0.1, 11.81), (0.1, -0.1, 7.81), (0.1, -0.1, 11.81), (0.1, 0.1, 7.81), (0.1, 0.1, 11.81)]

open scoped Classical in
/-- The rest of `np.argmax`, for the best entry so far and its index. -/
noncomputable def argmaxFrom (best : ℝ) (at' : Nat) : Nat → List ℝ → Nat
  | _, [] => at'
  | i, x :: xs => if best < x then argmaxFrom x i (i + 1) xs else argmaxFrom best at' (i + 1) xs

/-- `np.argmax(res)`, quadrotor_agent.py:143; `none` for an empty array. -/
noncomputable def argmax : List ℝ → Option Nat
  | [] => none
  | x :: xs => some (argmaxFrom x 0 1 xs)

/-- What an agent is created with (quadrotor_agent.py:29-32: `t_v_pair`, `box_side`) and what is not modelled. -/
structure Craft where
  limit : ℝ
  speed : ℝ
  box : List ℝ
  net : List ℝ → List ℝ
  rnd4 : ℝ → ℝ
  integ : Input → ℝ → S9 → S9
  /-- the lane of the mode (`lane_map.lane_dict[lane_map.trans_func(mode[1])]`) and the rounding in its coordinates -/
  lane : List Obj
  rnd : Nat → ℝ → ℝ

/-- The input that is chosen, quadrotor_agent.py:116-144, for the velocity `b` and the rotation `sc` of `ref_input`. -/
noncomputable def control (Q : Craft) (b : V3) (sc : ℝ) (s : S9) : Except String Input :=
  let e := s.pos.sub s.ref
  let ev := s.vel.sub b
  let data := [0.2 * (e.x * Real.cos sc - e.y * Real.sin sc), 0.2 * (e.x * Real.sin sc + e.y * Real.cos sc), 0.2 * e.z,
    0.1 * (ev.x * Real.cos sc - ev.y * Real.sin sc), 0.1 * (ev.x * Real.sin sc + ev.y * Real.cos sc), 0.1 * ev.z]
  match (argmax (Q.net data)).bind fun i => inputs[i]? with
  | some u => .ok ⟨u.1, u.2.1, u.2.2, b, sc⟩
  | none => .error "IndexError"

/-- `action_handler`, quadrotor_agent.py:54-62, with `check_guard_box` (lane_map_3d.py:237-242). -/
noncomputable def handler (Q : Craft) (s : Track) (c : S9) : Except String Bool :=
  match s.wp with
  | none => .error "KeyError"
  | some w =>
    match guardBox [w.2.x, w.2.y, w.2.z] [c.pos.x, c.pos.y, c.pos.z, c.vel.x, c.vel.y, c.vel.z] Q.box with
    | some b => .ok b
    | none => .error "IndexError"

open scoped Classical in
/-- The loop of `runModel`, quadrotor_agent.py:113-171: time, last state of the trajectory, the variable `init`, the flag `df`, and the trace so far. -/
noncomputable def runLoop (Q : Craft) (s : Track) (T dt : ℝ) (b : V3) (sc : ℝ) : Nat → ℝ → S9 → S9 → Bool → List (ℝ × S9) → Except String (List (ℝ × S9))
  | 0, _, _, _, _, _ => .error "loop"
  | n + 1, t, cur, init, df, acc =>
    if t < T ∨ df = false then do
      let u ← control Q b sc cur
      let df ← handler Q s init
      let val := Q.integ u dt cur
      let t := t + dt
      if 0 ≤ Q.rnd4 (t - T - dt) then return acc
      else runLoop Q s T dt b sc n t val cur df (acc ++ [(t, val)])
    else return acc

/-- `runModel`, quadrotor_agent.py:64-173. The rows still have the reference, which `TC_simulate` never looks at; it is dropped in `simulate`. -/
noncomputable def runModel (Q : Craft) (s : Track) (fuel : Nat) (c : S9) (T dt : ℝ) (b : V3) (sc : ℝ) : Except String (List (ℝ × S9)) :=
  runLoop Q s T dt b sc fuel 0 c c false [(0, c)]

/-- A row of the trace of an agent: time, position and velocity. -/
structure Row where
  time : ℝ
  pos : V3
  vel : V3

/-- `trace[i].extend(val[3:])` and `p[0] = round(p[0] + end_time, 4)`, quadrotor_agent.py:166-168, 223-224. -/
noncomputable def shift (Q : Craft) (endTime : ℝ) (p : ℝ × S9) : Row := ⟨Q.rnd4 (p.1 + endTime), p.2.pos, p.2.vel⟩

/-- The velocity of the reference between two waypoints, quadrotor_agent.py:192-194. -/
noncomputable def refVelocity (limit : ℝ) (w : V3 × V3) : V3 := (w.2.sub w.1).div limit

open scoped Classical in
/-- The loop of `TC_simulate`, quadrotor_agent.py:191-237. -/
noncomputable def flyLoop (Q : Craft) (fuel : Nat) (T dt : ℝ) : Nat → ℝ → V3 → V3 → V3 × V3 → Track → List Row → Except String (List Row × Track)
  | 0, _, _, _, _, _, _ => .error "loop"
  | n + 1, endTime, pos, vel, w, s, acc =>
    if endTime < T then do
      let run ← runModel Q s fuel ⟨w.1, pos, vel⟩ (min Q.limit (T - endTime)) dt (refVelocity Q.limit w) 0
      match (run.map (shift Q endTime)).getLast?, (run.map (shift Q endTime)).head? with
      | some l, some f =>
        match nextPoint Q.rnd Q.lane none l.vel (Q.limit * Q.speed) s with
        | none => .error "map"
        | some (w', s') =>
          let rows := run.map (shift Q endTime)
          flyLoop Q fuel T dt n l.time l.pos l.vel w' s' (acc ++ if Q.rnd4 (f.time - 0) ≠ 0 then rows.drop 1 else rows)
      | _, _ => .error "IndexError"
    else return (acc, s)

/-- `TC_simulate`, quadrotor_agent.py:175-238: the trace, and the entries of the map for the agent afterwards. -/
noncomputable def simulate (Q : Craft) (fuel : Nat) (s : Track) (pos vel : V3) (T dt : ℝ) : Except String (List Row × Track) :=
  match nextPoint Q.rnd Q.lane (some pos) vel (Q.limit * Q.speed) s with
  | none => .error "map"
  | some (w, s') => flyLoop Q fuel T dt fuel 0 pos vel w s' []

end Verif.Quad
