import Verif.Model.MixMono

/-!
`verse/analysis/mixmonotone.py`: reach tubes of mixed-monotone systems in continuous time.

Simplifications: numbers are elements of an ordered field; times are not rounded to 10 digits; the integrator (`scipy.integrate.ode`, `dopri5`) is a
parameter, which computes the state after one time step; the decomposition function is a total function.
-/

set_option autoImplicit false

namespace Verif.Mix

variable {K : Type} [Field K] [LinearOrder K]

/-- `agent.decomposition(x, w, xhat, what)`. -/
abbrev DecompC (K : Type) := List K → List K → List K → List K → List K

/-- `decomposition_dynamics`, 103-110. -/
def embedding (dec : DecompC K) (nv nu : Nat) (u state : List K) : List K :=
  let x := state.take nv
  let xhat := state.drop nv
  let w := u.take nu
  let what := u.drop nu
  dec x w xhat what ++ dec xhat what x w

/-- The loop of lines 125-128, from step `i` with `n` steps left: the rows that are appended to `trace`. `step` is `r.integrate(r.t + time_step)`. -/
def odeLoop (step : List K → List K) (nv : Nat) (dt : K) : Nat → Nat → List K → List (Row K)
  | _, 0, _ => []
  | i, n + 1, s => ⟨(i : K) * dt + dt, (step s).take nv, (step s).drop nv⟩ :: odeLoop step nv dt (i + 1) n (step s)

/-- `compute_reachtube_mixmono_cont`, 96-149; `w`, `what` are the bounds of the uncertain parameters. `solve f dt s`: the state at time `dt` of the
solution of `y' = f y` that starts in `s`, as the integrator computes it. -/
def tubeCont [FloorRing K] (solve : (List K → List K) → K → List K → List K) (lo hi w what : List K) (horizon dt : K) (dec : DecompC K) :
    Except String (List (K × List K)) :=
  tubeOf (cut lo.length 0 lo hi ::
    odeLoop (solve (embedding dec lo.length w.length (w ++ what)) dt) lo.length dt 0 ⌈horizon / dt⌉.toNat (lo ++ hi))

end Verif.Mix
