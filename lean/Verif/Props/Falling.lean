import Verif.Proofs.Falling

/-!
C118: a ball under gravity falls.
-/

set_option autoImplicit false

namespace Verif.Props
open Verif.Agents Verif.Falling Verif.Falling.Spec

/-- The dynamics of `Ball_g_agent` are those of a ball that falls, if the first coordinate is its height. -/
theorem C118_first_partial (g h x y vx vy : ℝ) (hh : 0 ≤ h) (s' : List ℝ) : FlowsE (gravity g) h [x, y, vx, vy] s' ↔ s' = fallsFirst g h [x, y, vx, vy] :=
  ⟨gravity_flows hh, fun e => e ▸ flows_gravity x y vx vy⟩

/-- The energy: along such a motion the sum of the kinetic energy and of `g` times the first coordinate does not change. -/
theorem C118_energy (g h x y vx vy : ℝ) (hh : 0 ≤ h) (s' : List ℝ) (hs : FlowsE (gravity g) h [x, y, vx, vy] s') :
    ∃ x' y' vx' vy', s' = [x', y', vx', vy'] ∧ (vx' ^ 2 + vy' ^ 2) / 2 + g * x' = (vx ^ 2 + vy ^ 2) / 2 + g * x := by
  rw [gravity_flows hh hs]
  exact ⟨_, _, _, _, rfl, by ring⟩

/-- Agents whose dynamics are methods of the object, as `BallAgent` and `LineAgent`, have the traces of `TC_simulate` of C85. -/
theorem C118_methods (odeint : OdeIntE) (ode : OdeInt) (ha : Agrees odeint ode) (rnd : ℝ → ℝ) (f : ℝ → List ℝ → List ℝ) (init : List ℝ) (horizon step : ℝ) :
    simulate odeint rnd plainSig (fun t s => .ok (f t s)) init horizon step = .ok (baseTrace ode rnd f init horizon step) := by
  unfold simulate baseTrace
  dsimp only
  rw [ha _ f init _ (fun t s _ => by simp [invoke, plainSig])]
  rfl

/-! ### what goes wrong -/

/-- `TC_simulate` of `Ball_g_agent` raises for every start, horizon and time step: its dynamics are a `staticmethod` with the parameter `self`. -/
theorem C118_raises_violated (odeint : OdeIntE) (hc : Calls odeint) (rnd : ℝ → ℝ) (g : ℝ) (init : List ℝ) (horizon step : ℝ) (hh : 0 ≤ horizon) (hs : 0 < step) :
    simulate odeint rnd gravitySig (gravity g) init horizon step = .error "TypeError" := by
  unfold simulate
  dsimp only
  rw [hc _ "TypeError" _ _ ?_ (fun t s => by simp [invoke, gravitySig])]
  · rfl
  · have : 0 < ⌈(horizon + step / 2) / step⌉₊ := Nat.ceil_pos.2 (by positivity)
    intro e
    rw [List.map_eq_nil_iff, List.range_eq_nil] at e
    omega

/-- Gravity pulls along the first coordinate, which pictures show to the right: the second coordinate of a ball does not fall, for any `g` and any start. Unless there is no
gravity, or no time passes, the motion is not that of a ball which falls. -/
theorem C118_sideways_violated (g h x y vx vy : ℝ) (hh : 0 < h) (hg : g ≠ 0) (s' : List ℝ) (hs : FlowsE (gravity g) h [x, y, vx, vy] s') :
    s'.getD 1 0 = y + vy * h ∧ s'.getD 3 0 = vy ∧ s' ≠ falls g h [x, y, vx, vy] := by
  rw [gravity_flows hh.le hs]
  refine ⟨by simp [fallsFirst], by simp [fallsFirst], fun e => ?_⟩
  simp only [fallsFirst, falls, List.cons.injEq, and_true] at e
  have : g * h = 0 := by linarith [e.2.2.1]
  rcases mul_eq_zero.1 this with h' | h'
  · exact hg h'
  · exact hh.ne' h'

/-! ### concrete cases -/

/-- The hypotheses hold for a ball at height 10, with velocity 2 in both directions, after one unit of time. -/
example : FlowsE (gravity 10) 1 [10, 5, 2, 2] [7, 7, -8, 2] := by
  rw [C118_first_partial _ _ _ _ _ _ (by norm_num)]
  simp only [fallsFirst, List.cons.injEq, and_true]
  norm_num

/-- An `odeint` that calls the function at the start. -/
private noncomputable def euler : OdeIntE := fun f init ts => match ts with
  | [] => .ok []
  | t0 :: _ => (f t0 init).map fun d => ts.map fun t => List.zipWith (fun s v => s + (t - t0) * v) init d

example : Calls euler := by
  intro f e init ts hne hf
  cases ts with
  | nil => exact absurd rfl hne
  | cons t ts => simp [euler, hf, Except.map]

/-- … and that agrees with one for functions that do not raise. -/
example : Agrees euler (fun f init ts => match ts with
    | [] => []
    | t0 :: _ => ts.map fun t => List.zipWith (fun s v => s + (t - t0) * v) init (f t0 init)) := by
  intro f g init ts hf
  cases ts with
  | nil => rfl
  | cons t ts => simp [euler, hf _ init rfl, Except.map]

end Verif.Props
