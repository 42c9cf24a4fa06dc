import Verif.Model.Plot

/-!
`verse/plotter/plotter2D_old.py` (matplotlib): `plot` 16-46, `plot_reachtube_tree` 49-86, `plot_simulation_tree` 120-160 and `generate_simulation_anime` 163-223;
`verse/plotter/plotter3D.py` (pyvista): `plot3dReachtube` 41-64 with `plot3dReachtubeSingle` 14-19 and `plot_polytope_3d` 74-89.

Simplifications
* a figure is the list of what is added to it; the colour that is given is dropped, the fixed colours are kept as flags;
* what is drawn before an exception is dropped, and so each loop that draws and widens the limits of the axes is written as two loops, one after the other;
* the limits of the axes before the call (`ax.get_xlim()`, `ax.get_ylim()`) or those given are parameters; values are exact;
* the map that is drawn behind an animation (`plot_map`, 89-117) is left out.
-/

set_option autoImplicit false
set_option linter.unusedSectionVars false

namespace Verif.Static
open Verif.Spec Verif.ATree Verif.Plot

variable {K : Type} [Field K] [LinearOrder K]

/-- Limits of the two axes: `(x_min, x_max), (y_min, y_max)`. -/
abbrev Lim (K : Type) := (K × K) × (K × K)

/-- `patches.Rectangle(anchor, width, height)`; `black` if the colour is `"k"` because of `assert_hits`. -/
structure Patch (K : Type) where
  black : Bool
  anchor : K × K
  width : K
  height : K
  deriving DecidableEq

/-- The entries `x` and `y` of a row. -/
def at2 (x y : Nat) (r : Row K) : Except String (K × K) :=
  match r[x]?, r[y]? with
  | some a, some b => .ok (a, b)
  | _, _ => .error "IndexError"

/-- plotter2D_old.py 72-74, plotter3D.py 54-56: `trace[i + 1]` raises for the last row of an odd trace. -/
def pairUp : List (Row K) → Except String (List (Row K × Row K))
  | [] => .ok []
  | [_] => .error "IndexError"
  | a :: b :: l => (pairUp l).map fun r => (a, b) :: r

/-- plotter2D_old.py 30-37: the corners of all rectangles for all dimensions `y_dim_list`. -/
def corners (black : Bool) (x : Nat) (ys : List Nat) (data : List (Row K × Row K)) : Except String (List (Bool × (K × K) × (K × K))) :=
  (data.flatMap fun d => ys.map fun y => (d, y)).mapM fun e => (at2 x e.2 e.1.1).bind fun a => (at2 x e.2 e.1.2).map fun b => (black, a, b)

/-- 34-36. -/
def patch (e : Bool × (K × K) × (K × K)) : Patch K := ⟨e.1, e.2.1, e.2.2.1 - e.2.1.1, e.2.2.2 - e.2.1.2⟩

/-- 38-41. -/
def grow (l : Lim K) (a b : K × K) : Lim K := ((min a.1 l.1.1, max b.1 l.1.2), (min a.2 l.2.1, max b.2 l.2.2))

/-- 43-44, 157-158: the limits the axes get. -/
def view (m : K) (l : Lim K) : Lim K := ((l.1.1 - m, l.1.2 + m), (l.2.1 - m, l.2.2 + m))

/-- `if node.assert_hits`, 80. -/
def truthy (h : Option (Dict String (List String))) : Bool :=
  match h with
  | none => false
  | some d => !d.isEmpty

/-- 81: the last rectangle of a node, in black. -/
def blackOf (x : Nat) (ys : List Nat) (data : List (Row K × Row K)) : Except String (List (Bool × (K × K) × (K × K))) :=
  match data.getLast? with
  | none => .error "IndexError"
  | some d => corners true x ys [d]

/-- 69-81: one node of `plot_reachtube_tree`. -/
def tubeNode (aid : String) (x : Nat) (ys : List Nat) (n : PNode K) : Except String (List (Bool × (K × K) × (K × K))) :=
  match Dict.get? n.trace aid with
  | none => .error "KeyError"
  | some tr => (pairUp tr).bind fun data => (corners false x ys data).bind fun cs =>
      (if truthy n.hits then blackOf x ys data else .ok []).map fun bs => cs ++ bs

/-- `plot_reachtube_tree`, 49-86, of a node: the rectangles and the limits of the axes afterwards. The loop over the queue visits the nodes in the order of
`ATree.bfs`. -/
def plotReachtubeTree (aid : String) (x : Nat) (ys : List Nat) (lim : Lim K) (t : RTree (PNode K)) : Except String (List (Patch K) × Lim K) :=
  ((bfs [t]).mapM fun u => tubeNode aid x ys u.label).map fun ss =>
    (ss.flatten.map patch, view 1 (ss.flatten.foldl (fun l e => grow l e.2.1 e.2.2) lim))

/-- 143-153: one node of `plot_simulation_tree`, the points of a line for each of `y_dim_list`. `trace[:, x_dim]` raises for an empty trace. -/
def lineNode (aid : String) (x : Nat) (ys : List Nat) (n : PNode K) : Except String (List (List (K × K))) :=
  match Dict.get? n.trace aid with
  | none => .error "KeyError"
  | some tr => if tr.isEmpty && !ys.isEmpty then .error "IndexError" else ys.mapM fun y => tr.mapM (at2 x y)

/-- `plot_simulation_tree`, 120-160: the lines and the limits of the axes afterwards. -/
def plotSimulationTree (aid : String) (x : Nat) (ys : List Nat) (lim : Lim K) (t : RTree (PNode K)) : Except String (List (List (K × K)) × Lim K) :=
  ((bfs [t]).mapM fun u => lineNode aid x ys u.label).map fun ss =>
    (ss.flatten, view 1 (ss.flatten.flatten.foldl (fun l p => grow l p p) lim))

/-! ### `generate_simulation_anime`, 163-223 -/

/-- What is drawn for a row, 202-216: the point, the arrow from it, and whether it is red. -/
structure Dot (K : Type) where
  pos : K × K
  arrow : K × K
  red : Bool
  deriving DecidableEq

/-- 172-173, 190: the stack, with its top first. -/
def stackLoop : List (RTree (PNode K)) → List (RTree (PNode K))
  | [] => []
  | t :: s => t :: stackLoop (t.kids.reverse ++ s)
termination_by q => sizeL q
decreasing_by
  rw [sizeL_append]; simp only [sizeL]; rw [size_eq t]
  have : ∀ l : List (RTree (PNode K)), sizeL l.reverse = sizeL l := by
    intro l; induction l with
    | nil => rfl
    | cons a l ih => rw [List.reverse_cons, sizeL_append, ih]; simp [sizeL, Nat.add_comm]
  rw [this]; omega

/-- 175-189, in the order of the loops: all rows with their agents. -/
def rows (t : RTree (PNode K)) : List (String × Row K) :=
  (stackLoop [t]).flatMap fun u => u.label.trace.flatMap fun e => e.2.map fun r => (e.1, r)

/-- 177-189 and 202-215 for one row: `round(time, 5)` and what is drawn. `cos`, `sin` and `rnd` are the functions of NumPy and Python. -/
def dot (cos sin rnd : K → K) (e : String × Row K) : Except String (K × Dot K) :=
  match e.2[0]?, e.2[1]?, e.2[2]?, e.2[3]?, e.2[4]? with
  | some t, some x, some y, some θ, some v => .ok (rnd t, ⟨(x, y), (cos θ * v, sin θ * v), decide (e.1 = "car2")⟩)
  | _, _, _, _, _ => .error "IndexError"

/-- 186-189. -/
def addDot (fr : Dict K (List (Dot K))) (e : K × Dot K) : Dict K (List (Dot K)) :=
  match Dict.get? fr e.1 with
  | none => Dict.set fr e.1 [e.2]
  | some l => Dict.set fr e.1 (l ++ [e.2])

/-- `generate_simulation_anime`, 163-223: the frames in their order, and the limits of the axes of all frames (`none` without rows, when no frame is shown).
`ylim` are the limits of the axis after the map is drawn. -/
def simulationAnime (cos sin rnd : K → K) (ylim : K × K) (t : RTree (PNode K)) : Except String (Dict K (List (Dot K)) × Option (K × K) × (K × K)) :=
  ((rows t).mapM (dot cos sin rnd)).map fun ds =>
    (ds.foldl addDot [], (widen none (ds.map fun d => d.2.pos.1)).map (fun l => (l.1 - 2, l.2 + 2)),
      ((ds.map fun d => d.2.pos.2).foldl min ylim.1 - 2, (ds.map fun d => d.2.pos.2).foldl max ylim.2 + 2))

/-! ### `plot3dReachtube`, plotter3D.py 41-64 -/

/-- A polytope: rows of `A` with the entries of `b`. -/
abbrev Poly (K : Type) := List ((K × K × K) × K)

/-- `pc.box2poly` of a box (of the package `polytope`): `A = [I; -I]`, `b = [upper; -lower]`. -/
def box2poly (a b : K × K × K) : Poly K :=
  [((1, 0, 0), b.1), ((0, 1, 0), b.2.1), ((0, 0, 1), b.2.2), ((-1, 0, 0), -a.1), ((0, -1, 0), -a.2.1), ((0, 0, -1), -a.2.2)]

/-- 16: three entries of a row. -/
def at3 (x y z : Nat) (r : Row K) : Except String (K × K × K) :=
  match r[x]?, r[y]?, r[z]? with
  | some a, some b, some c => .ok (a, b, c)
  | _, _, _ => .error "IndexError"

/-- 14-17, 50-62: the polytopes of a node. -/
def boxNode (aid : String) (x y z : Nat) (n : PNode K) : Except String (List (Poly K)) :=
  match Dict.get? n.trace aid with
  | none => .error "KeyError"
  | some tr => (pairUp tr).bind fun data => data.mapM fun d => (at3 x y z d.1).bind fun a => (at3 x y z d.2).map fun b => box2poly a b

/-- `plot3dReachtube`, 41-64, of a tree or of a node: the polytopes whose shells are drawn. `shell` tells whether pyvista finds a shell with points (78-84); the
others are skipped. -/
def plot3dReachtube (shell : Poly K → Bool) (aid : String) (x y z : Nat) (t : RTree (PNode K)) : Except String (List (Poly K)) :=
  ((bfs [t]).mapM fun u => boxNode aid x y z u.label).map fun ss => ss.flatten.filter shell

end Verif.Static
