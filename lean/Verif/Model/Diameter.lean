import Verif.Model.Star
import Verif.Spec.Diameter

/-!
`verse/utils/star_manhattan.py` and `verse/utils/star_diams.py`: the diameters of the star sets of a tree.

Simplifications
* numbers are elements of an ordered field, also the times of `np.linspace`;
* the arrays of the linear program are functions of the indices; `scipy.optimize.milp` is a parameter that gives the minimum, or nothing
  if the status is not 0;
* `C` has as many rows as `g` has entries, as `StarSet.__init__` makes sure.
-/

set_option autoImplicit false
set_option linter.unusedSectionVars false

namespace Verif.Diam
open Verif.Stars Finset

variable {K : Type} [Field K] [LinearOrder K]

/-- star_manhattan.py 17. -/
def bigN : K := 1048575

/-- Rows for the points, star_manhattan.py 49-57: `n` dimensions, `m` vectors. -/
def pointEntry (n m : Nat) (basis : Nat → Nat → K) (i j : Nat) : K :=
  let idx : Int := (j : Int) - (4 * n : Nat) - ((i / n) * m : Nat)
  if 0 ≤ idx ∧ idx < m then -1 * basis idx.toNat (i % n) else if i = j then 1 else 0

/-- The four rows of dimension `k`, star_manhattan.py 61-84. -/
def absEntry (n k r j : Nat) : K :=
  if j = k then (if r = 0 ∨ r = 2 then 1 else -1)
  else if j = k + n then (if r = 0 ∨ r = 2 then -1 else 1)
  else if j = k + n * 2 then -1
  else if j = k + n * 3 then (if r = 0 then bigN else if r = 1 then -1 * bigN else 0)
  else 0

/-- Rows for the coefficients, star_manhattan.py 88-94: row `i` of the second part is for the second point. -/
def alphaEntry (n m p : Nat) (C : Nat → Nat → K) (i j : Nat) : K :=
  let a := i / p
  if n * 4 + a * m ≤ j ∧ j < n * 4 + a * m + m then C (i % p) (j - (n * 4 + a * m)) else 0

/-- The array `A`, star_manhattan.py 44-94. -/
def entry (n m p : Nat) (basis C : Nat → Nat → K) (i j : Nat) : K :=
  if i < n * 2 then pointEntry n m basis i j
  else if i < n * 2 + n * 4 then absEntry n ((i - n * 2) / 4) ((i - n * 2) % 4) j
  else alphaEntry n m p C (i - (n * 2 + n * 4)) j

/-- `bl`, star_manhattan.py 98-125. -/
def rowLower (n : Nat) (center : Nat → K) (i : Nat) : Option K :=
  if i < n * 2 then some (center (i % n))
  else if i < n * 2 + n * 4 then (if (i - n * 2) % 4 = 0 then some 0 else if (i - n * 2) % 4 = 1 then some (-1 * bigN) else none)
  else none

/-- `bu`, star_manhattan.py 97-125. -/
def rowUpper (n p : Nat) (center g : Nat → K) (i : Nat) : Option K :=
  if i < n * 2 then some (center (i % n))
  else if i < n * 2 + n * 4 then (if (i - n * 2) % 4 = 0 ∨ (i - n * 2) % 4 = 1 then none else some 0)
  else some (g ((i - (n * 2 + n * 4)) % p))

/-- The program that is given to `milp`, star_manhattan.py 7-138. The variables are the two points, the distances, the signs and the
coefficients of the two points. -/
def program (s : StarSet K) : Milp K :=
  let n := s.center.len
  let m := s.basis.rows
  let p := s.g.len
  { nvars := n * 4 + m * 2
    rows := n * 2 + n * 4 + p * 2
    c := fun j => if n * 2 ≤ j ∧ j < n * 2 + n then -1 else 0
    isInt := fun j => decide (n * 3 ≤ j ∧ j < n * 3 + n)
    A := entry n m p s.basis.at_ s.C.at_
    bl := rowLower n s.center.at_
    bu := rowUpper n p s.center.at_ s.g.at_
    lower := fun j => if n * 3 ≤ j ∧ j < n * 3 + n then some 0 else none
    upper := fun j => if n * 3 ≤ j ∧ j < n * 3 + n then some 1 else none }

/-- `star_manhattan_distance`, star_manhattan.py 7-143: the distance, and whether it was found. -/
def starManhattan (milp : Milp K → Option K) (s : StarSet K) : K × Bool :=
  match milp (program s) with
  | none => (0, false)
  | some f => (-1 * f, true)

/-! ### `star_diams.py` -/

/-- What is used of a node of a tree: the traces; a row is a time and a star set. -/
abbrev SNode (K : Type) := Dict String (List (K × StarSet K))

/-- The loop over the rows, star_diams.py 104-112. -/
def rowsIn (tl tu : K) : List (K × StarSet K) → List (StarSet K)
  | [] => []
  | r :: rs => if r.1 < tl then rowsIn tl tu rs else if tu < r.1 then [] else r.2 :: rowsIn tl tu rs

/-- One agent of a node, 102-112: an agent without stars gets no entry. -/
def reachAgent (tl tu : K) (nd : SNode K) (acc : Dict String (List (StarSet K))) (a : String) : Except String (Dict String (List (StarSet K))) :=
  match Dict.get? nd a with
  | none => .error "KeyError"
  | some rows => if rowsIn tl tu rows = [] then .ok acc else .ok (Dict.set acc a ((Dict.get? acc a).getD [] ++ rowsIn tl tu rows))

/-- `reach_star`, star_diams.py 89-114; `nodes` are the nodes of the tree. -/
def reachStar (nodes : List (SNode K)) (tl tu : K) : Except String (Dict String (List (StarSet K))) :=
  match nodes with
  | [] => .error "IndexError"
  | n0 :: _ => nodes.foldlM (fun acc nd => (Dict.keys n0).foldlM (reachAgent tl tu nd) acc) []

/-- `np.linspace(0, T, n + 1)` and one more step, star_diams.py 36-37. -/
def timeSteps (T dt : K) (n : Nat) : List K :=
  (List.range (n + 1)).map (fun i : Nat => if n = 0 then 0 else (i : K) * (T / n)) ++ [(if n = 0 then 0 else T) + dt]

/-- The windows of 40-43. -/
def windows (T dt : K) (n : Nat) : List (K × K) :=
  ((timeSteps T dt n).zip ((timeSteps T dt n).drop 1)).map (fun w => (w.1 - dt * (1 / 10), w.2 - dt * (1 / 10)))

/-- `manhattan(rect[0], rect[1])`, 31-32 and 54-55, for the pairs of minimum and maximum. -/
def rectDiam (r : List (K × K)) : K := (r.map (fun b => |b.1 - b.2|)).sum

/-- 48-55: the diameter of a star; if it is not found, that of the rectangle around the star. -/
def diamOf (milp : Milp K → Option K) (rect : StarSet K → Except String (List (K × K))) (s : StarSet K) : Except String K :=
  match starManhattan milp s with
  | (d, true) => .ok d
  | (_, false) => (rect s).map rectDiam

/-- 40-63: one window; nothing is added for a window without stars. -/
def windowDiam (diam : StarSet K → Except String K) (nodes : List (SNode K)) (w : K × K) : Except String (Option K) :=
  (reachStar nodes w.1 w.2).bind fun r => ((r.map Prod.snd).flatten.mapM diam).map fun ds => match ds with
    | [] => none
    | d :: ds => some (ds.foldl max d)

/-- `time_step_diameter`, star_diams.py 35-68; `n` is `int(time_horizon / time_step)`. -/
def timeStepDiameter (diam : StarSet K → Except String K) (nodes : List (SNode K)) (T dt : K) (n : Nat) : Except String (List K) :=
  ((windows T dt n).mapM (windowDiam diam nodes)).map (List.filterMap id)

end Verif.Diam
