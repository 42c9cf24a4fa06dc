import Verif.Model.Basic
import Mathlib.Algebra.Order.Field.Basic

/-!
`verse/analysis/dryvr.py` and `verse/analysis/dryvr_disc.py`: reach tubes from simulations, method `PW`.

Simplifications
* numbers are elements of an ordered field;
* an array is its shape and a function from indices to numbers;
* `_SMALL_EPSILON` is a parameter `eps`; the numbers drawn by `random.uniform` in `[0, 1]` are a parameter;
* the simulator is a parameter (`sim_func` for a fixed mode, horizon, step and map);
* no guard checker (its only caller passes none); for the method `PWGlobal` see `Verif.Model.DryvrGlobal`.
-/

set_option autoImplicit false

namespace Verif.Dry

variable {K : Type} [Field K] [LinearOrder K]

/-- A three-dimensional array: traces, times, time and variables. -/
structure Arr (K : Type) where
  n    : Nat
  len  : Nat
  dims : Nat
  at_  : Nat → Nat → Nat → K

/-- `np.array(traces)` for a list of lists of rows: all of the same shape. -/
def toArr (ts : List (List (List K))) : Except String (Arr K) :=
  match ts with
  | [] => .error "ValueError"
  | t :: _ => match t with
    | [] => .error "ValueError"
    | r :: _ =>
      if ts.all (fun t' => decide (t'.length = t.length) && t'.all (fun r' => decide (r'.length = r.length))) then
        .ok ⟨ts.length, t.length, r.length, fun i k d => (((ts[i]?.getD [])[k]?.getD [])[d]?).getD 0⟩
      else .error "ValueError"

/-- `np.max` of a list of numbers. -/
def maxOf : List K → K
  | [] => 0
  | [x] => x
  | x :: y :: l => max x (maxOf (y :: l))

/-- Which radii are replaced by 1 before dividing: dryvr.py:20, `== 0`. -/
def isZero (x : K) : Bool := decide (x = 0)

/-- dryvr_disc.py:21-22: `< 1e-10`. -/
def isTiny (x : K) : Bool := decide (x < 1 / 10 ^ 10)

/-- `normalizing_initial_set_radii[d]`, dryvr.py:18-20. -/
def normRadius (small : K → Bool) (r : List K) (d : Nat) : K := if small (r[d]?.getD 0) then 1 else r[d]?.getD 0

/-- The pairs of `pdist`: `i < j < n`. -/
def pairs (n : Nat) : List (Nat × Nat) := (List.range n).flatMap (fun i => ((List.range n).filter (fun j => decide (i < j))).map (fun j => (i, j)))

/-- `initial_distances` for two traces, 23-28. -/
def initDist (eps : K) (small : K → Bool) (a : Arr K) (r : List K) (p : Nat × Nat) : K :=
  maxOf ((List.range (a.dims - 1)).map (fun d => |a.at_ p.1 0 (d + 1) / normRadius small r d - a.at_ p.2 0 (d + 1) / normRadius small r d|)) + eps

/-- `y_points[d][k - 1]` of `all_sensitivities_calc`, dryvr.py:14-44, for variable `d` (from 0) at time index `k`. -/
def sens (eps : K) (small : K → Bool) (a : Arr K) (r : List K) (d k : Nat) : K :=
  maxOf ((pairs a.n).map (fun p => |a.at_ p.1 k (d + 1) - a.at_ p.2 k (d + 1)| / normRadius small r d / initDist eps small a r p))

/-- `df[k][c]` with the method `PW`, dryvr.py:57-69: column 0 is the time. -/
def df (eps : K) (small : K → Bool) (a : Arr K) (r : List K) (k c : Nat) : K :=
  if c = 0 then 0
  else if k = 0 then (if r[c - 1]?.getD 0 = 0 then 0 else 1) * normRadius isZero r (c - 1)
  else sens eps small a r (c - 1) k * normRadius isZero r (c - 1)

/-- The assertions of `get_reachtube_segment` (56, 144), `np.max` of no pair (30), the shapes of the radii. -/
def checks (eps : K) (small : K → Bool) (a : Arr K) (r : List K) : Bool :=
  (List.range a.n).all (fun i => (List.range a.len).all (fun k => decide (a.at_ 0 k 0 = a.at_ i k 0))) &&
  decide (r.length + 1 = a.dims) && decide (2 ≤ a.n) &&
  (List.range a.len).all (fun k => (List.range a.dims).all (fun c => decide (0 ≤ df eps small a r k c)))

/-- `reachtube_segment[k]`, dryvr.py:145-151: lower and upper corner of the rectangle between the times `k` and `k + 1`. -/
def segment (eps : K) (a : Arr K) (r : List K) (k : Nat) : List K × List K :=
  ((List.range a.dims).map (fun c => min (a.at_ 0 (k + 1) c - df eps isZero a r (k + 1) c) (a.at_ 0 k c - df eps isZero a r k c)),
   (List.range a.dims).map (fun c => max (a.at_ 0 (k + 1) c + df eps isZero a r (k + 1) c) (a.at_ 0 k c + df eps isZero a r k c)))

/-- `get_reachtube_segment(traces, radii, "PW")`, dryvr.py:47-166. -/
def getSegments (eps : K) (a : Arr K) (r : List K) : Except String (List (List K × List K)) :=
  if checks eps isZero a r then .ok ((List.range (a.len - 1)).map (segment eps a r)) else .error "AssertionError"

/-- `reachtube_segment[k]`, dryvr_disc.py:113-115. -/
def segmentDisc (eps : K) (a : Arr K) (r : List K) (k : Nat) : List K × List K :=
  ((List.range a.dims).map (fun c => a.at_ 0 k c - df eps isTiny a r k c), (List.range a.dims).map (fun c => a.at_ 0 k c + df eps isTiny a r k c))

/-- `get_reachtube_segment`, dryvr_disc.py:36-122. -/
def getSegmentsDisc (eps : K) (a : Arr K) (r : List K) : Except String (List (List K × List K)) :=
  if checks eps isTiny a r then .ok ((List.range a.len).map (segmentDisc eps a r)) else .error "AssertionError"

/-- `calcCenterPoint`, 169-187 (the lists have the same length). -/
def center (lo hi : List K) : List K := List.zipWith (fun l u => (u + l) / 2) lo hi

/-- `calcDelta`, 190-208. -/
def delta (lo hi : List K) : List K := List.zipWith (fun l u => (u - l) / 2) lo hi

/-- `randomPoint`, 211-233: `random.uniform(l, u)` is `l + x * (u - l)`. -/
def randomPoint (lo hi x : List K) : List K := List.zipWith (fun (b : K × K) x => b.1 + x * (b.2 - b.1)) (lo.zip hi) x

/-- `trimTraces`, 236-248. -/
def trimTraces (ts : List (List (List K))) : List (List (List K)) :=
  match ts with
  | [] => []
  | t :: ts' => ts.map (fun x => x.take (ts'.foldl (fun m y => min m y.length) t.length))

/-- The rows of the tube, 316-318: lower and upper corners alternate. -/
def interleave (segs : List (List K × List K)) : List (List K) := segs.flatMap (fun s => [s.1, s.2])

/-- The traces of `calc_bloated_tube`, 284-293; `rnd` are the random numbers, one list per simulation. -/
def traces (sim : List K → List (List K)) (lo hi : List K) (rnd : List (List K)) : List (List (List K)) :=
  trimTraces (sim (center lo hi) :: rnd.map (fun x => sim (randomPoint lo hi x)))

/-- `calc_bloated_tube` with the method `PW`, dryvr.py:251-320. -/
def bloatedTube (eps : K) (sim : List K → List (List K)) (lo hi : List K) (rnd : List (List K)) : Except String (List (List K)) :=
  if lo.length = hi.length then
    (toArr (traces sim lo hi rnd)).bind fun a => (getSegments eps a (delta lo hi)).map interleave
  else .error "AssertionError"

/-- `calc_bloated_tube_dryvr` with the method `PW`, dryvr_disc.py:203-268. -/
def bloatedTubeDisc (eps : K) (sim : List K → List (List K)) (lo hi : List K) (rnd : List (List K)) : Except String (List (List K)) :=
  if lo.length = hi.length then
    (toArr (traces sim lo hi rnd)).bind fun a => (getSegmentsDisc eps a (delta lo hi)).map interleave
  else .error "AssertionError"

end Verif.Dry
