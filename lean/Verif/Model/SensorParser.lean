import Verif.Model.ParserWrap
import Verif.Model.Lane
import Mathlib.Analysis.SpecialFunctions.Trigonometric.Arctan

/-!
verse/analysis/parsed_wrap/sensor_parser.py and bounded_map.py: bounds of the values of a sensor over a box of inputs.

Simplifications
* numbers are elements of an ordered field (the code converts them to 32 bits); the model of a sensor by torch and CROWN together are a
  parameter that gives the lower and upper bounds of the outputs over a box;
* the key of the cache is the bounds, the name and the number of splits, not the hash value of their text;
* the bounds of the parts have the same number of entries, as they come from the same sensor.
-/

set_option autoImplicit false
set_option linter.unusedSectionVars false

namespace Verif.SensP
open Verif.Pars

variable {K : Type} [Field K] [LinearOrder K]

/-- The lower and the upper bounds of the outputs. -/
abbrev Out (K : Type) := List K × List K

/-- `BoundedModule.compute_bounds` for the replaced sensor over a box, sensor_parser.py 321-338. -/
abbrev Crown (K : Type) := List (K × K) → Except String (Out K)

/-- sensor_parser.py 340-347 (and 411-418): `np.minimum` and `np.maximum` of the bounds so far and the new ones. -/
def combine (acc : Option (Out K)) (b : Out K) : Option (Out K) :=
  match acc with
  | none => some b
  | some g => some (List.zipWith min g.1 b.1, List.zipWith max g.2 b.2)

/-- The loop over the parts, sensor_parser.py 321-347 (and 392-418). -/
def splitLoop (crown : Crown K) : List (List (K × K)) → Option (Out K) → Except String (Option (Out K))
  | [], acc => .ok acc
  | part :: rest, acc => (crown part).bind fun b => splitLoop crown rest (combine acc b)

/-- `parsed_sensor_expr`, sensor_parser.py 354-423, also sensor_parser.py 301-347. The parts of an interval are those of
parser_wrapper.py (`splitIv`): the lines 309-318 and 380-389 are the same. `none` is `(None, None)`. -/
def parsedSensorExpr (crown : Crown K) (input : List (K × K)) (n : Nat) : Except String (Option (Out K)) :=
  splitLoop crown (product (input.map (splitIv n))) none

/-- A function given to `parsed_sensor`: its name, and what CROWN says of it. -/
structure Sensor (K : Type) where
  name : String
  crown : Crown K

/-- The files in `sensor_cache`, sensor_parser.py 25-30 and 288-294. -/
abbrev SCache (K : Type) := Dict (List (K × K) × String × Nat) (Option (Out K))

/-- `parsed_sensor`, sensor_parser.py 265-352. With `sim` the name `model` is used before it is assigned. -/
def parsedSensor (s : Sensor K) (inputs : Option (List K)) (bounds : Option (List (K × K))) (sim : Bool) (n : Nat) (c : SCache K) :
    Except String (Option (Out K)) × SCache K :=
  if sim then
    match inputs with
    | none => (.error "ValueError", c)
    | some _ => (.error "UnboundLocalError", c)
  else match bounds with
    | none => (.error "ValueError", c)
    | some b => match Dict.get? c (b, s.name, n) with
      | some r => (.ok r, c)
      | none => match parsedSensorExpr s.crown b n with
        | .error e => (.error e, c)
        | .ok r => (.ok r, Dict.set c (b, s.name, n) r)

/-- A history of calls of `parsed_sensor` for bounds: sensor, bounds, number of splits; with the results. -/
def runCalls : SCache K → List (Sensor K × List (K × K) × Nat) → List ((Sensor K × List (K × K) × Nat) × Except String (Option (Out K)))
  | _, [] => []
  | c, q :: qs => (q, (parsedSensor q.1 none (some q.2.1) false q.2.2 c).1) :: runCalls (parsedSensor q.1 none (some q.2.1) false q.2.2 c).2 qs

/-! ### The replacements for torch -/

/-- `torch.sign` -/
noncomputable def sgn (x : ℝ) : ℝ := if x < 0 then -1 else if 0 < x then 1 else 0

/-- `norm`, sensor_parser.py 39-53. -/
noncomputable def torchNorm (xs : List ℝ) : ℝ := Real.sqrt ((xs.map (fun x => x * x)).sum + 1 / 10 ^ 8)

/-- `atan2_crown_safe`, sensor_parser.py 78-103. A number divided by 0 is infinite for torch, and the arcus tangens of infinity is π / 2. (0 / 0 is no number for
torch; here 0 is taken for the angle.) -/
noncomputable def atan2Safe (y x : ℝ) : ℝ :=
  let absX := |x|
  let yAdj := y * sgn (x + 1 / 10 ^ 8)
  let theta := open Classical in if absX = 0 then Real.pi / 2 * sgn yAdj else Real.arctan (yAdj / absX)
  let correction := Real.pi * (1 - sgn x) / 2 * sgn y
  theta + correction

/-! ### bounded_map.py -/

/-- The three functions of bounded_map.py, 4-19, 21-35 and 38-52: `f` is `lane_map.get_lane_heading(lane_idx, ·)`,
`get_lateral_distance` or `get_longitudinal_position`; `opt` is the value found by `differential_evolution`. -/
def optimizedBounds (opt : (K × K → K) → K × K → K × K → K) (f : K × K → K) (xb yb : K × K) : K × K :=
  (opt f xb yb, -(opt (fun p => -(f p)) xb yb))

end Verif.SensP
