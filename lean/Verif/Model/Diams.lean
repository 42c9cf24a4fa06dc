import Verif.Model.FixedPoint
import Mathlib.Algebra.Order.Group.Abs
import Mathlib.Algebra.Order.Floor.Ring

/-!
`verse/utils/star_diams.py`: `time_step_diameter_rect` (73-86), `sim_traces_to_dict_composed` (116-150) and `sim_traces_to_diameters` (152-171).

Simplifications: numbers are elements of an ordered field; a row of a trace is the pair of its time and its values; `hash` is a parameter.
-/

set_option autoImplicit false

namespace Verif.Diams
open Verif.Spec Verif.ATree Verif.Fix

variable {K : Type} [Field K] [LinearOrder K]

/-- `manhattan`, 70-71. -/
def manhattan (a b : List K) : K := (List.zipWith (fun x y => |x - y|) a b).sum

/-- `manhattan(reach_tubes[node][0], reach_tubes[node][1])`, 82. -/
def nodeDiam : List (List K) → Except String K
  | a :: b :: _ => .ok (manhattan a b)
  | _ => .error "IndexError"

/-- `max` of a list, if it is not empty, 83-84. -/
def maxIfAny : List K → List K
  | [] => []
  | d :: ds => [ds.foldl max d]

/-- 77-84: one step. -/
def windowDiam (root : RTree (FNode K)) (lo hi : K) : Except String (List K) :=
  (reachAt root (some (lo, hi))).bind fun rs => (rs.mapM nodeDiam).map maxIfAny

/-- `np.linspace(0, time_horizon, n + 1)[i]`, 74. -/
def gridTime (T : K) (n i : Nat) : K := (i : K) * (T / n)

/-- `time_step_diameter_rect`, 73-86. -/
def rectDiameters [FloorRing K] (root : RTree (FNode K)) (T step : K) : Except String (List K) :=
  ((List.range ⌊T / step⌋.toNat).mapM fun i =>
    windowDiam root (gridTime T ⌊T / step⌋.toNat i - step * (5 / 100)) (gridTime T ⌊T / step⌋.toNat (i + 1) + step * (5 / 100))).map List.flatten

/-- `comp_modes`, 125-127. -/
def modeText (n : FNode K) : String := String.intercalate " | " (n.mode.map fun p => String.join p.2)

/-- `str(hist)`, 128. -/
def histText : Option Int → String
  | none => "None"
  | some h => toString h

/-- `new_hist`, 128. -/
def histKey (hash : String → Int) (h : Option Int) (n : FNode K) : Int := hash (histText h ++ modeText n)

/-- `temp_dict`, 133-140. -/
def composeNode (n : FNode K) : Dict K (List K) :=
  n.trace.foldl (fun d p => p.2.foldl (fun d r => Dict.set d r.1 ((Dict.get? d r.1).getD [] ++ r.2)) d) []

/-- 142-145. -/
def record (g : Dict K (List (List K))) (d : Dict K (List K)) : Dict K (List (List K)) :=
  d.foldl (fun g p => Dict.set g p.1 ((Dict.get? g p.1).getD [] ++ [p.2])) g

/-- `hist_dict` -/
abbrev Groups (K : Type) := Dict Int (Dict K (List (List K)))

/-- 129-145: one node. -/
def visit (gs : Groups K) (n : FNode K) (k : Int) : Groups K :=
  Dict.set gs k (record ((Dict.get? gs k).getD []) (composeNode n))

omit [Field K] [LinearOrder K] in
theorem sizeL_queue (q : List (RTree (FNode K) × Option Int)) (t : RTree (FNode K)) (h : Option Int) :
    sizeL ((q ++ t.kids.map fun c => (c, h)).map Prod.fst) = sizeL (q.map Prod.fst) + sizeL t.kids := by
  rw [List.map_append, sizeL_append, List.map_map]
  congr 2
  exact List.map_id _

/-- The loop over the queue, 121-148. -/
def walk (hash : String → Int) : List (RTree (FNode K) × Option Int) → Groups K → Groups K
  | [], gs => gs
  | (t, h) :: q, gs =>
    walk hash (q ++ t.kids.map fun c => (c, some (histKey hash h t.label))) (visit gs t.label (histKey hash h t.label))
termination_by q => sizeL (q.map Prod.fst)
decreasing_by rw [sizeL_queue, List.map_cons, sizeL, size_eq]; simp only; omega

/-- `sim_traces_to_dict_composed`, 116-150. -/
def groups (hash : String → Int) (sims : List (RTree (FNode K))) : Groups K := sims.foldl (fun gs t => walk hash [(t, none)] gs) []

/-- 162-169: the size of the smallest rectangle around the states that have the most entries. -/
def spread (states : List (List K)) : K :=
  match states.filter (fun s => s.length = (states.map List.length).foldl max 0) with
  | [] => 0
  | s :: ss => manhattan (ss.foldl (List.zipWith min) s) (ss.foldl (List.zipWith max) s)

/-- `sim_traces_to_diameters`, 152-171. (Line 166: some state has the most entries.) -/
def simDiameters (hash : String → Int) (sims : List (RTree (FNode K))) : List K :=
  (groups hash sims).flatMap fun g => g.2.map fun p => spread p.2

end Verif.Diams
