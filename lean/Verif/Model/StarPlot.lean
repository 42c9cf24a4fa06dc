import Verif.Model.Star
import Verif.Model.Tree
import Mathlib.Analysis.SpecialFunctions.Trigonometric.Basic

/-!
Pictures of star sets: `get_verts` of `verse/stars/starset.py` (412-460) and `verse/plotter/plotterStar.py`.

Simplifications
* numbers are real, without rounding; a picture is the list of the curves that are drawn, each with the index of its colour;
* `dim1` and `dim2` are both given or both left out; negative numbers of dimensions are not modelled.
-/

set_option autoImplicit false

namespace Verif.StarPlot
open Verif.Spec Verif.ATree Verif.Stars

section
variable {K : Type} [Field K] [LinearOrder K]

/-- `direction`, starset.py:418-421, 429-435, for one angle with cosine `x` and sine `y`; `n` is the dimension. -/
def direction (n : Nat) (dims : Option (Nat × Nat)) (x y : K) : Except String (Vec K) :=
  match dims with
  | none => .ok ⟨2 + (n - 2), fun i => if i = 0 then x else if i = 1 then y else 0⟩
  | some (a, b) => if a < n ∧ b < n then .ok ⟨n, fun i => if i = b then y else if i = a then x else 0⟩ else .error "IndexError"

/-- `pt[0][dim1]`, `pt[0][dim2]`, starset.py:446-453. -/
def pick (dims : Option (Nat × Nat)) (p : Vec K) : Except String (K × K) :=
  let d := dims.getD (0, 1)
  if d.1 < p.len ∧ d.2 < p.len then .ok (p.at_ d.1, p.at_ d.2) else .error "IndexError"

/-- One round of the loop, starset.py:423-453. -/
def vert (lp : Bool → Vec K → Mat K → Vec K → LPRes K) (s : StarSet K) (dims : Option (Nat × Nat)) (c : K × K) : Except String (K × K) :=
  (direction s.center.len dims c.1 c.2).bind fun d => (maximize lp s d).bind fun p => pick dims p

/-- `get_verts`, starset.py:412-460, for given cosines and sines: the first point is added again at the end. -/
def vertsOf (lp : Bool → Vec K → Mat K → Vec K → LPRes K) (s : StarSet K) (dims : Option (Nat × Nat)) (cs : List (K × K)) : Except String (List (K × K)) :=
  (cs.mapM (vert lp s dims)).bind fun l => match l with
  | [] => .error "IndexError"
  | q :: l => .ok (q :: l ++ [q])

end

/-- `np.linspace(0, 2*np.pi, 100)`, starset.py:423. -/
noncomputable def angle (i : Nat) : ℝ := i * (2 * Real.pi / 99)

/-- The cosines and sines of the angles, starset.py:425-426. -/
noncomputable def compass : List (ℝ × ℝ) := (List.range 100).map fun i : Nat => (Real.cos (angle i), Real.sin (angle i))

/-- `get_verts`, starset.py:412-460. -/
noncomputable def getVerts (lp : Bool → Vec ℝ → Mat ℝ → Vec ℝ → LPRes ℝ) (s : StarSet ℝ) (dims : Option (Nat × Nat)) : Except String (List (ℝ × ℝ)) :=
  vertsOf lp s dims compass

/-- The part of a node that is plotted: for every agent the entries `[time, star]`. -/
structure SNode where
  trace : Dict String (List (ℝ × StarSet ℝ))

/-- `[tr[i] for i in range(0, len(tr), rate)]`, plotterStar.py:101-104. -/
def every {α : Type} (rate : Nat) (tr : List α) : List α := ((List.range tr.length).filter (fun i => i % rate = 0)).filterMap (fun i => tr[i]?)

/-- One node of `sample_trace`, plotterStar.py:100-104. -/
def thinNode (rate : Nat) (n : SNode) : SNode := ⟨n.trace.map (fun e => (e.1, every rate e.2))⟩

/-- `sample_trace`, plotterStar.py:80-106: the tree afterwards. `root.type == "reachtube"` (83) compares a member of the plain `Enum`
`AnalysisTreeNodeType` with a string, which is `False` in Python, so that the branch 84-96 is never taken. A rate of 0 raises `ValueError` in
`range` as soon as there is a trace. -/
def thin (rate : Nat) (t : RTree SNode) : Except String (RTree SNode) :=
  if rate = 0 then .error "ValueError" else .ok (RTree.map (thinNode rate) t)

/-- The loop over the entries, plotterStar.py:63-73: `get_verts` is called without dimensions. -/
noncomputable def drawTrace (lp : Bool → Vec ℝ → Mat ℝ → Vec ℝ → LPRes ℝ) (color : Nat) (tr : List (ℝ × StarSet ℝ)) : Except String (List (Nat × List (ℝ × ℝ))) :=
  tr.mapM fun e => (getVerts lp e.2 none).map fun l => (color, l)

/-- `reachtube_tree_single`, plotterStar.py:54-77; the children of a node without the agent are not visited. -/
noncomputable def drawAgent (lp : Bool → Vec ℝ → Mat ℝ → Vec ℝ → LPRes ℝ) (aid : String) (x y color : Nat) : List (RTree SNode) → Except String (List (Nat × List (ℝ × ℝ)))
  | [] => .ok []
  | t :: q => match Dict.get? t.label.trace aid with
    | some tr => (drawTrace lp color tr).bind fun s => (drawAgent lp aid x y color (q ++ t.kids)).map fun r => s ++ r
    | none => drawAgent lp aid x y color q
termination_by q => sizeL q
decreasing_by
  · rw [sizeL_append]; simp only [sizeL]; rw [size_eq t]; omega
  · simp only [sizeL]; rw [size_eq t]; omega

/-- `plot_reachtube_stars`, plotterStar.py:14-36: the curves and the tree afterwards. `agents` are the keys of `root.agent`; the colours are
taken in turn from seven. -/
noncomputable def plotStars (lp : Bool → Vec ℝ → Mat ℝ → Vec ℝ → LPRes ℝ) (agents : List String) (x y filter : Nat) (t : RTree SNode) :
    Except String (List (Nat × List (ℝ × ℝ)) × RTree SNode) :=
  (thin filter t).bind fun t => ((agents.zipIdx).mapM fun a => drawAgent lp a.1 x y (a.2 % 7) [t]).map fun s => (s.flatten, t)

end Verif.StarPlot
