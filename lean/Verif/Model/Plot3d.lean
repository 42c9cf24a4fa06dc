import Verif.Model.Plot
import Verif.Model.Lane3d

/-!
`verse/plotter/plotter3D_new.py`: what `reachtube_tree_3d` (100-165, 328-461), `simulation_tree_3d` (35-97, 232-325) and `draw_map_3d` (168-229) draw, and the
cuboids of `reachtube_anime_3d` (686-712).

Simplifications
* as in `Plot`: a figure is the list of what is added to it, with the id of the agent; colours, texts other than those of violated assertions and styles are
  dropped; a trace is a list of rows, as it is indexed; values are exact;
* `sample_trace` (479-504) has the text of the one in `plotter2D.py`, which `Plot.sampleTrace` models;
* the values of the three dimensions that are shown are looked up once per row; a missing value is `IndexError`.
-/

set_option autoImplicit false
set_option linter.unusedSectionVars false

namespace Verif.Plot3d
open Verif.Spec Verif.ATree Verif.Plot

variable {K : Type} [Field K] [LinearOrder K]

/-- A point. -/
abbrev P3 (K : Type) := K × K × K

/-- What is added to a figure: `go.Scatter3d` with lines, `go.Mesh3d` with its vertices and the three lists of indices as triples, a mark with the texts of
violated assertions. -/
inductive Item (K : Type) where
  | line (ps : List (P3 K))
  | mesh (vs : List (P3 K)) (tris : List (Nat × Nat × Nat))
  | mark (p : P3 K) (texts : List String)
  deriving DecidableEq

/-- The values of the three dimensions in all rows. -/
def project3 (x y z : Nat) (tr : List (Row K)) : Except String (List (P3 K)) :=
  tr.mapM fun r => match r[x]?, r[y]?, r[z]? with
    | some a, some b, some c => .ok (a, b, c)
    | _, _, _ => .error "IndexError"

/-! ### Boxes, 362-413 -/

/-- `range(0, max_id, 2)` with `max_id = len(trace) - 1`: pairs of rows; a last row without a partner is dropped. -/
def pairs3 : List (P3 K) → List (P3 K × P3 K)
  | a :: b :: l => (a, b) :: pairs3 l
  | _ => []

/-- 382-387: the corners of a box. -/
def corners8 (a b : P3 K) : List (P3 K) :=
  [a.2.2, b.2.2].flatMap fun z => [a.2.1, b.2.1].flatMap fun y => [a.1, b.1].map fun x => (x, y, z)

/-- 356-358. -/
def triI : List Nat := [0, 3, 4, 7, 0, 6, 1, 7, 0, 5, 2, 7]
def triJ : List Nat := [1, 2, 5, 6, 2, 4, 3, 5, 4, 1, 6, 3]
def triK : List Nat := [3, 0, 7, 4, 6, 0, 7, 1, 5, 0, 7, 2]

/-- 388-392: the triangles of the boxes, the first of which has the number `n`. -/
def triangles (n : Nat) : List (P3 K × P3 K) → List (Nat × Nat × Nat)
  | [] => []
  | _ :: l => (List.range 12).map (fun m => (triI.getD m 0 + n * 8, triJ.getD m 0 + n * 8, triK.getD m 0 + n * 8)) ++ triangles (n + 1) l

/-- 393-396: the line along the edges of a box. -/
def wire (a b : P3 K) : List (P3 K) :=
  let x : Nat → K := fun i => if i = 0 then a.1 else b.1
  let y : Nat → K := fun i => if i = 0 then a.2.1 else b.2.1
  let z : Nat → K := fun i => if i = 0 then a.2.2 else b.2.2
  (List.range 16).map fun m => (x ([0, 1, 1, 0, 0, 0, 1, 1, 1, 1, 1, 1, 0, 0, 0, 0].getD m 0), y ([0, 0, 1, 1, 0, 0, 0, 0, 0, 1, 1, 1, 1, 1, 1, 0].getD m 0),
    z ([0, 0, 0, 0, 0, 1, 1, 0, 1, 1, 0, 1, 1, 0, 1, 1].getD m 0))

/-- 362-413: the lines and the mesh of a node. -/
def nodeItems (ps : List (P3 K)) : List (Item K) :=
  (pairs3 ps).map (fun e => .line (wire e.1 e.2)) ++ [.mesh ((pairs3 ps).flatMap fun e => corners8 e.1 e.2) (triangles 0 (pairs3 ps))]

/-- 414-427, 303-319: the mark of the violated assertions, at the last row. -/
def nodeMark (aid : String) (hits : Option (Dict String (List String))) (ps : List (P3 K)) : Except String (List (Item K)) :=
  match hits with
  | none => .ok []
  | some h => match Dict.get? h aid with
    | none => .ok []
    | some as => match ps.getLast? with
      | none => .error "IndexError"
      | some p => .ok [.mark p as]

/-- `reachtube_tree_single_3d`, 328-461. `combine` tells whether `combine_rect` is given. A node without the agent is skipped before its children are put on the
queue. -/
def tube3 (aid : String) (x y z : Nat) (combine : Bool) : List (RTree (PNode K)) → Except String (List (String × Item K))
  | [] => .ok []
  | t :: q => match Dict.get? t.label.trace aid with
    | none => tube3 aid x y z combine q
    | some tr => (project3 x y z tr).bind fun ps => (if combine then .ok [] else (nodeMark aid t.label.hits ps).map fun m => nodeItems ps ++ m).bind fun s =>
        (tube3 aid x y z combine (q ++ t.kids)).map fun r => s.map (fun s => (aid, s)) ++ r
termination_by q => sizeL q
decreasing_by
  · simp only [sizeL]; rw [size_eq t]; omega
  · rw [sizeL_append]; simp only [sizeL]; rw [size_eq t]; omega

/-- `simulation_tree_single_3d`, 232-325: the loop ends at the first node without the agent. -/
def line3 (aid : String) (x y z : Nat) : List (RTree (PNode K)) → Except String (List (String × Item K))
  | [] => .ok []
  | t :: q => match Dict.get? t.label.trace aid with
    | none => .ok []
    | some [] => .error "IndexError"
    | some tr => (project3 x y z tr).bind fun ps => (nodeMark aid t.label.hits ps).bind fun m =>
        (line3 aid x y z (q ++ t.kids)).map fun r => (.line ps :: m).map (fun s => (aid, s)) ++ r
termination_by q => sizeL q
decreasing_by rw [sizeL_append]; simp only [sizeL]; rw [size_eq t]; omega

/-- 126-128, with `check_dim` 464-476 (its last loop tests `y_dim` again): number of columns of the trace of the first agent. -/
def checkDims3 (agents : List String) (n : PNode K) (x y z : Nat) : Except String Unit :=
  match agents with
  | [] => .error "IndexError"
  | a :: _ => match Dict.get? n.trace a with
    | none => .error "KeyError"
    | some [] => .error "IndexError"
    | some (r :: _) => if r.length ≤ x then .error "ValueError" else if r.length ≤ y then .error "ValueError" else if r.length ≤ z then .error "ValueError" else .ok ()

/-- `reachtube_tree_3d`, 100-165: what is drawn and the tree afterwards. -/
def reachtubeTree3 (agents : List String) (x y z rate : Nat) (combine : Bool) (t : RTree (PNode K)) : Except String (List (String × Item K) × RTree (PNode K)) :=
  (sampleTrace rate t).bind fun t => (checkDims3 agents t.label x y z).bind fun _ =>
    (agents.mapM (fun a => tube3 a x y z combine [t])).map fun s => (s.flatten, t)

/-- `simulation_tree_3d`, 35-97. -/
def simulationTree3 (agents : List String) (x y z rate : Nat) (t : RTree (PNode K)) : Except String (List (String × Item K) × RTree (PNode K)) :=
  (sampleTrace rate t).bind fun t => (checkDims3 agents t.label x y z).bind fun _ =>
    (agents.mapM (fun a => line3 a x y z [t])).map fun s => (s.flatten, t)

/-- 686-705: the six faces of a cuboid in `reachtube_anime_3d`. -/
def faces (a b : P3 K) : List (P3 K × P3 K × P3 K × P3 K) :=
  let v0 : P3 K := (a.1, a.2.1, a.2.2)
  let v1 : P3 K := (b.1, a.2.1, a.2.2)
  let v2 : P3 K := (b.1, b.2.1, a.2.2)
  let v3 : P3 K := (a.1, b.2.1, a.2.2)
  let v4 : P3 K := (a.1, a.2.1, b.2.2)
  let v5 : P3 K := (b.1, a.2.1, b.2.2)
  let v6 : P3 K := (b.1, b.2.1, b.2.2)
  let v7 : P3 K := (a.1, b.2.1, b.2.2)
  [(v0, v1, v2, v3), (v4, v5, v6, v7), (v0, v1, v5, v4), (v2, v3, v7, v6), (v1, v2, v6, v5), (v0, v3, v7, v4)]

/-! ### Maps, 168-229 -/

/-- `np.mgrid[start:stop:num*1j]`. -/
noncomputable def grid (start stop : ℝ) (num : Nat) : List ℝ := (List.range num).map fun k : Nat => start + (k : ℝ) * ((stop - start) / ((num : ℝ) - 1))

/-- `StraightLane_3d.get_lane_center`, verse/map/lane_segment_3d.py 261-270. -/
noncomputable def straightCenter (s : Lane3d.Straight) (num : Nat) : List Lane3d.V3 :=
  (grid 0 s.length num).map fun l => s.start.add (s.dir.smul l)

/-- `CircularLane_3d_v1.get_lane_center`, verse/map/lane_segment_3d.py 447-468; the vectors `a` and `b` of the lane (317-331) are those of `get_coor_by_rt`. -/
noncomputable def circularCenter (c : Lane3d.Circular) (num : Nat) : List Lane3d.V3 :=
  let phases := if c.startPhase ≤ c.endPhase then
      (if c.right then grid c.startPhase c.endPhase num else grid c.endPhase (c.startPhase + 2 * Real.pi) num)
    else (if c.right then grid c.startPhase (c.endPhase + 2 * Real.pi) num else grid c.endPhase c.startPhase num)
  phases.map fun p => Lane3d.coorByRt c.radius p c.n c.center c.right

/-- `draw_map_3d`, 168-229: one line per segment. -/
noncomputable def drawMap3 (lanes : List (List Lane3d.Segment)) : List (List Lane3d.V3) :=
  lanes.flatMap fun segs => segs.map fun
    | .straight s => straightCenter s 100
    | .circular c => circularCenter c 100

end Verif.Plot3d
