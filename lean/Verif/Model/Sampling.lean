import Verif.Model.Star
import Mathlib.Algebra.Order.Floor.Ring

/-!
`verse/stars/starset.py`: `sample_star` (606-619), and `gen_starsets_post_sim` (707-722) from the star set instead of the sampled points;
`sample_rect` (verse/utils/utils.py 416-422).

Simplification: numbers are elements of an ordered field. The random generator is a parameter: the number for the `d`-th entry of the `k`-th call.
-/

set_option autoImplicit false

namespace Verif.Stars

variable {K : Type} [Field K] [LinearOrder K]

/-- `sample_rect` without a seed, utils.py 416-422: `uniform(low, high)` is `low + (high - low) * u`. -/
def drawPoint (r : List (K × K)) (u : Nat → Nat → K) (k : Nat) : Vec K :=
  ⟨r.length, fun d => match r[d]? with
    | some b => b.1 + (b.2 - b.1) * u k d
    | none => 0⟩

/-- The loop, 610-618, with `int(N*tol)` as `lim`; it also returns the number of points that were drawn. -/
def sampleLoop (check : Nat → List (Lin K) → Bool) (s : StarSet K) (r : List (K × K)) (u : Nat → Nat → K) (N lim : Nat) (pts : List (Vec K)) (misses k : Nat) :
    Except String (List (Vec K) × Nat) :=
  if _h : pts.length < N then
    match containmentPoly check s (drawPoint r u k) with
    | .error e => .error e
    | .ok true => sampleLoop check s r u N lim (pts ++ [drawPoint r u k]) 0 (k + 1)
    | .ok false => if _hm : lim < misses + 1 then .error "Too many consecutive misses" else sampleLoop check s r u N lim pts (misses + 1) (k + 1)
  else .ok (pts, k)
termination_by (N - pts.length, lim + 1 - misses)
decreasing_by
  · left
    rw [List.length_append, List.length_singleton]
    omega
  · right
    omega

/-- `sample_star`, 606-619. A negative `int(N*tol)` has the same effect as 0. -/
def sampleStar [FloorRing K] (lp : Bool → Vec K → Mat K → Vec K → LPRes K) (check : Nat → List (Lin K) → Bool) (u : Nat → Nat → K) (s : StarSet K) (N : Nat) (tol : K) :
    Except String (List (Vec K) × Nat) :=
  (overapprox lp s).bind fun r => sampleLoop check s r u N ⌊(N : K) * tol⌋.toNat [] 0 0

/-- `gen_starsets_post_sim`, 707-722; `tol` has its default. -/
def postSim [FloorRing K] (lp : Bool → Vec K → Mat K → Vec K → LPRes K) (check : Nat → List (Lin K) → Bool) (u : Nat → Nat → K)
    (opt : StarSet K → Mat K → List (Vec K) → Option (Fit K)) (pca : List (Vec K) → Except String (Mat K)) (sim : Vec K → Except String (List (K × Vec K)))
    (s : StarSet K) (N : Nat) : Except String (List (StarSet K)) :=
  (sampleStar lp check u s N (1 / 5)).bind fun p => starsPostSim opt pca sim s p.1

end Verif.Stars
