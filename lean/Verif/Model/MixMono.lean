import Verif.Model.Basic
import Mathlib.Algebra.Order.Field.Basic
import Mathlib.Algebra.Order.Floor.Ring

/-!
`verse/analysis/mixmonotone.py`: reach tubes of mixed-monotone systems in discrete time.

Simplifications: numbers are elements of an ordered field (no rounding of the times to 10 digits); the dynamics and the minimizer (`scipy.optimize.minimize`) are parameters;
the variant that parses the source of the dynamics is in `MixText` (it ends in the same loop, with the same minimum or maximum over a box).
-/

set_option autoImplicit false

namespace Verif.Mix

variable {K : Type} [Field K] [LinearOrder K]

/-- A decomposition function: `decomposition(x, w, xhat, what, dt)`. -/
abbrev Decomp (K : Type) := List K → List K → List K → List K → Except String (List K)

/-- One row of `trace`: time, `d`, `dhat`. (They are one list in the code, cut at `num_var`.) -/
structure Row (K : Type) where
  time : K
  x    : List K
  xhat : List K
  deriving DecidableEq

/-- `xk[1 : 1 + num_var]`, `xk[1 + num_var :]` of the concatenation. -/
def cut (nv : Nat) (time : K) (x xhat : List K) : Row K := ⟨time, (x ++ xhat).take nv, (x ++ xhat).drop nv⟩

/-- The body of the loop, 63-71. -/
def stepRow (dec : Decomp K) (w what : List K) (nv : Nat) (dt : K) (i : Nat) (r : Row K) : Except String (Row K) :=
  (dec r.x w r.xhat what).bind fun d => (dec r.xhat what r.x w).map fun dhat => cut nv ((i : K) * dt + dt) d dhat

/-- The loop, 63-71, from step `i` with `n` steps left. -/
def traceLoop (dec : Decomp K) (w what : List K) (nv : Nat) (dt : K) : Nat → Nat → Row K → Except String (List (Row K))
  | _, 0, r => .ok [r]
  | i, n + 1, r => (stepRow dec w what nv dt i r).bind fun r' => (traceLoop dec w what nv dt (i + 1) n r').map (r :: ·)

/-- `np.minimum.reduce` of four lists: an error unless they have the same length. -/
def reduce4 (f : K → K → K) (a b c d : List K) : Except String (List K) :=
  if a.length = b.length ∧ a.length = c.length ∧ a.length = d.length then .ok (List.zipWith f (List.zipWith f (List.zipWith f a b) c) d) else .error "ValueError"

/-- The two rows of the tube for consecutive rows of the trace, 75-92. -/
def rectOf (r r' : Row K) : Except String (List (K × List K)) :=
  (reduce4 min r.x r'.x r.xhat r'.xhat).bind fun lo => (reduce4 max r.x r'.x r.xhat r'.xhat).map fun hi => [(r.time, lo), (r'.time, hi)]

/-- The loop of lines 74-92. -/
def tubeOf : List (Row K) → Except String (List (K × List K))
  | r :: r' :: rs => (rectOf r r').bind fun a => (tubeOf (r' :: rs)).map (a ++ ·)
  | _ => .ok []

/-- `compute_reachtube_mixmono_disc`, 55-93; `w`, `what` are the bounds of the uncertain parameters. -/
def tubeDisc [FloorRing K] (lo hi w what : List K) (horizon dt : K) (dec : Decomp K) : Except String (List (K × List K)) :=
  (traceLoop dec w what lo.length dt 0 ⌈horizon / dt⌉.toNat (cut lo.length 0 lo hi)).bind tubeOf

/-- `all(a <= b for a, b in zip(x, y))` -/
def allLe (x y : List K) : Bool := (x.zip y).all (fun p => decide (p.1 ≤ p.2))

/-- `find_max`, 27-31: minus the minimum of minus the function; `minimize f lo hi` stands for `minimize(f, ...).fun` on the box, started at `lo`. -/
def findMax (minimize : (List K → K) → List K → List K → K) (f : List K → K) (lo hi : List K) : K := -minimize (fun z => -f z) lo hi

/-- `decomposition_func`, 175-203, for agents with a Jacobian: minimum or maximum of every component over the box. `f i z` is component `i` of the dynamics, for the
concatenation `z` of state and parameters. -/
def decompOf (minimize : (List K → K) → List K → List K → K) (f : Nat → List K → K) : Decomp K := fun x w xhat what =>
  if x.length = xhat.length ∧ w.length = what.length then
    if allLe x xhat && allLe w what then .ok ((List.range x.length).map (fun i => minimize (f i) (x ++ w) (xhat ++ what)))
    else if allLe xhat x && allLe what w then .ok ((List.range x.length).map (fun i => findMax minimize (f i) (xhat ++ what) (x ++ w)))
    else .error "ValueError"
  else .error "AssertionError"

end Verif.Mix
