import Verif.Model.Agents

/-!
`verse/agents/example_agent/ballg_agent.py` (11-36): the ball under gravity, and how `BaseAgent.TC_simulate` (verse/agents/base_agent.py 88-93) calls the dynamics of
an agent.

Simplifications
* `odeint` is any function that may raise;
* exceptions are values.
-/

set_option autoImplicit false

namespace Verif.Falling
open Verif.Agents

/-- A function of a class that is called through an object: whether it is a `staticmethod`, and the number of its parameters. -/
structure Signature where
  static : Bool
  params : Nat

/-- `Ball_g_agent.dynamics(self, t, state)` with `@staticmethod`, ballg_agent.py 28-29. -/
def gravitySig : Signature := ⟨true, 3⟩

/-- `dynamics(self, t, state)` of `BallAgent` and `LineAgent`, ball_agent.py 26, line_agent.py 25. -/
def plainSig : Signature := ⟨false, 3⟩

/-- Calling a function through an object: the object is the first argument, but not for a `staticmethod`; another number of arguments than of parameters raises. -/
def invoke {α : Type} (sig : Signature) (args : Nat) (body : Except String α) : Except String α :=
  if (if sig.static then args else args + 1) = sig.params then body else .error "TypeError"

/-- `Ball_g_agent.dynamics`, ballg_agent.py 29-36, for an agent with `g_acc = g`. -/
def gravity (g : ℝ) (_t : ℝ) (state : List ℝ) : Except String (List ℝ) :=
  match state with
  | [_, _, vx, vy] => .ok [vx, vy, -g, 0]
  | _ => .error "ValueError"

/-- `odeint(f, y0, t)`, with a function that may raise. -/
abbrev OdeIntE := (ℝ → List ℝ → Except String (List ℝ)) → List ℝ → List ℝ → Except String (List (List ℝ))

/-- `BaseAgent.TC_simulate`, base_agent.py 88-93: `odeint` calls `self.dynamics(t, state)`, two arguments. -/
noncomputable def simulate (odeint : OdeIntE) (rnd : ℝ → ℝ) (sig : Signature) (f : ℝ → List ℝ → Except String (List ℝ)) (init : List ℝ) (horizon step : ℝ) :
    Except String (List Row) :=
  let t := (List.range ⌈(horizon + step / 2) / step⌉₊).map fun (k : Nat) => rnd ((k : ℝ) * step)
  (odeint (fun t s => invoke sig 2 (f t s)) init t).map fun ys => t.zip ys

end Verif.Falling
