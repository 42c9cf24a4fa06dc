import Verif.Model.Tree
import Mathlib.Algebra.Order.Field.Basic

/-!
`verse/plotter/plotter2D.py`: what `reachtube_tree` (481-586), `simulation_tree` (61-171), `reachtube_tree_slice` (2435-2549),
`reachtube_anime` (589-763) and `simulation_anime` (173-478) draw of the traces of a tree.

Simplifications
* a figure is the list of the traces of the agents that are added to it (with the id of the agent; colours and texts are
  dropped), the marks of violated assertions and the ranges of the axes; maps and labels of modes are not modelled;
* the values of the two dimensions that are shown are looked up once per row (`project`); a missing value is `IndexError`;
* a trace of a tube is a list of rows, as it is indexed; values are exact, there is no `nan`.
-/

set_option autoImplicit false
set_option linter.unusedSectionVars false

namespace Verif.Plot
open Verif.Spec Verif.ATree

variable {K : Type} [Field K] [LinearOrder K]

/-- A row of a trace: time, then the variables. -/
abbrev Row (K : Type) := List K

/-- The part of a node that is plotted: `trace` and `assert_hits`. -/
structure PNode (K : Type) where
  trace : Dict String (List (Row K))
  hits : Option (Dict String (List String))
  deriving DecidableEq

/-- `go.Scatter`: markers, a filled closed polygon (`fill="toself"`), or a line. -/
inductive Shape (K : Type) where
  | marker (p : K × K)
  | filled (vs : List (K × K))
  | line (ps : List (K × K))
  deriving DecidableEq

/-! ### `sample_trace`, 2366-2391 -/

/-- `range(0, n, step)`. -/
def rangeStep (n step : Nat) : List Nat := (List.range n).filter (fun i => i % step = 0)

/-- 2386-2389. -/
def sampleSim (rate : Nat) (tr : List (Row K)) : List (Row K) :=
  (rangeStep tr.length rate).filterMap (fun i => tr[i]?)

/-- One node of `sample_trace`. -/
def sampleNode (f : List (Row K) → List (Row K)) (n : PNode K) : PNode K := ⟨n.trace.map (fun e => (e.1, f e.2)), n.hits⟩

/-- `sample_trace`, 2366-2391: the tree is changed in place, so this is the tree afterwards. `root.type == "reachtube"` (2369) compares a
member of the plain `Enum` `AnalysisTreeNodeType` with a string, which is `False` in Python, so that the branch for reachtubes (2370-2382)
is never taken. A rate of 0 raises `ValueError` in `range`. -/
def sampleTrace (rate : Nat) (t : RTree (PNode K)) : Except String (RTree (PNode K)) :=
  if rate = 0 then .error "ValueError" else .ok (RTree.map (sampleNode (sampleSim rate)) t)

/-! ### `reachtube_tree_single`, 1785-2019 -/

/-- The values of the two dimensions in all rows. -/
def project (x y : Nat) (tr : List (Row K)) : Except String (List (K × K)) :=
  tr.mapM fun r => match r[x]?, r[y]? with
    | some a, some b => .ok (a, b)
    | _, _ => .error "IndexError"

/-- 1817-1820: among all rows but the last there is one value of `x` and one of `y`. -/
def single (ps : List (K × K)) : Bool :=
  match ps.dropLast with
  | [] => false
  | p :: qs => qs.all (fun q => decide (q.1 = p.1)) && qs.all (fun q => decide (q.2 = p.2))

/-- 1859-1876, 1896-1913: the closed polygon of a rectangle. -/
def box (a b : K × K) : List (K × K) := [(a.1, a.2), (b.1, a.2), (b.1, b.2), (a.1, b.2), (a.1, a.2)]

/-- 1858-1891, `combine_rect <= 1`: one polygon per pair of rows. -/
def boxes : List (K × K) → Except String (List (Shape K))
  | [] => .ok []
  | [_] => .error "IndexError"
  | a :: b :: l => (boxes l).map (fun s => .filled (box a b) :: s)

/-- 1838-1841 (and 1930-1934): rows with even and odd index. -/
def pairs : List (K × K) → List ((K × K) × (K × K))
  | a :: b :: l => (a, b) :: pairs l
  | _ => []

/-- 1836-1857, `combine_rect == None`: one polygon through all lower and then all upper corners. -/
def ribbon (ps : List (K × K)) : Except String (List (Shape K)) :=
  match pairs ps with
  | [] => .error "IndexError"
  | (a, b) :: rest => .ok [.filled (((a, b) :: rest).map Prod.fst ++ (((a, b) :: rest).map Prod.snd).reverse ++ [a])]

/-- 1938-1945, 1962-1976: the corner after the last lower corner. `y`, `z` are the last two rectangles. -/
def endCorner (y z : (K × K) × (K × K)) : K × K :=
  let incX := decide (y.1.1 ≤ z.1.1) && decide (y.2.1 ≤ z.2.1)
  let incY := decide (y.1.2 ≤ z.1.2) && decide (y.2.2 ≤ z.2.2)
  let xEnd := if incX then z.2.1 else z.1.1
  if incY then (if incX then z.1.1 else xEnd, z.2.2) else (xEnd, z.1.2)

/-- 1947-1958, 1978-1996: the corner after the last upper corner. `a`, `b` are the first two rectangles. -/
def startCorner (a b : (K × K) × (K × K)) : K × K :=
  let decX := decide (b.1.1 ≤ a.1.1) && decide (b.2.1 ≤ a.2.1)
  let incX := decide (a.1.1 ≤ b.1.1) && decide (a.2.1 ≤ b.2.1)
  let decY := decide (b.1.2 ≤ a.1.2) && decide (b.2.2 ≤ a.2.2)
  let incY := decide (a.1.2 ≤ b.1.2) && decide (a.2.2 ≤ b.2.2)
  let xStart := if decX then a.2.1 else a.1.1
  if decY then (xStart, a.2.2) else if incY then (if incX then a.2.1 else xStart, a.1.2) else (xStart, a.2.2)

/-- 1893-2018: one group of rows. An odd number of rows raises `IndexError`. -/
def group (seg : List (K × K)) : Except String (List (Shape K)) :=
  if seg.length % 2 = 1 then .error "IndexError"
  else match pairs seg with
  | [] => .ok []
  | [(a, b)] => .ok [.filled (box a b)]
  | a :: b :: rest =>
    let all := a :: b :: rest
    let z := all.getLast (by simp [all])
    let y := all.dropLast.getLast (by simp [all])
    .ok [.filled (all.map Prod.fst ++ [endCorner y z] ++ (all.map Prod.snd).reverse ++ [startCorner a b] ++ [a.1])]

/-- `trace[idx : idx + k]` for `idx` in `range(0, len(trace), k)`. -/
def chunks {α : Type} (k : Nat) (l : List α) : List (List α) := (rangeStep l.length k).map (fun i => (l.drop i).take k)

/-- 1814-2018: the traces added for one node; `combine_rect` is `none` for `None`. -/
def nodeShapes (combine : Option Int) (ps : List (K × K)) : Except String (List (Shape K)) :=
  if single ps then .ok (ps.head?.toList.map .marker)
  else match combine with
  | none => ribbon ps
  | some c => if c ≤ 1 then boxes ps else ((chunks (c.toNat * 2) ps).mapM group).map List.flatten

/-- 1809-2019: the loop over the nodes; it ends at the first node without the agent. -/
def tubeLoop (aid : String) (x y : Nat) (combine : Option Int) : List (RTree (PNode K)) → Except String (List (String × Shape K))
  | [] => .ok []
  | t :: q => match Dict.get? t.label.trace aid with
    | none => .ok []
    | some tr => (project x y tr).bind fun ps => (nodeShapes combine ps).bind fun s =>
        (tubeLoop aid x y combine (q ++ t.kids)).map fun r => s.map (fun s => (aid, s)) ++ r
termination_by q => sizeL q
decreasing_by rw [sizeL_append]; simp only [sizeL]; rw [size_eq t]; omega

/-- `simulation_tree_single`, 2044-2088. -/
def lineLoop (aid : String) (x y : Nat) : List (RTree (PNode K)) → Except String (List (String × Shape K))
  | [] => .ok []
  | t :: q => match Dict.get? t.label.trace aid with
    | none => .ok []
    | some [] => .error "IndexError"
    | some tr => (project x y tr).bind fun ps =>
        (lineLoop aid x y (q ++ t.kids)).map fun r => (aid, .line ps) :: r
termination_by q => sizeL q
decreasing_by rw [sizeL_append]; simp only [sizeL]; rw [size_eq t]; omega

/-! ### the axes and the marks of violated assertions -/

/-- `x_min, x_max`: `none` is `inf, -inf`. -/
def widen (r : Option (K × K)) (vs : List K) : Option (K × K) :=
  vs.foldl (fun r v => match r with
    | none => some (v, v)
    | some (a, b) => some (min a v, max b v)) r

/-- 538-575, one agent of a node: the ranges and the marks so far. `hits` tells whether hits are marked. -/
def scanAgent (x y : Nat) (hits : Bool) (n : PNode K) (st : (Option (K × K) × Option (K × K)) × List (String × (K × K) × List String)) (e : String × List (Row K)) :
    Except String ((Option (K × K) × Option (K × K)) × List (String × (K × K) × List String)) :=
  (project x y e.2).bind fun ps => match ps.getLast? with
    | none => .error "IndexError"
    | some p => .ok ((widen st.1.1 (ps.map Prod.fst), widen st.1.2 (ps.map Prod.snd)),
        match n.hits with
        | none => st.2
        | some h => match Dict.get? h e.1 with
          | none => st.2
          | some as => if hits then st.2 ++ [(e.1, p, as)] else st.2)

/-- 532-576: all nodes. -/
def scan (x y : Nat) (hits : Bool) : List (RTree (PNode K)) → (Option (K × K) × Option (K × K)) × List (String × (K × K) × List String) →
    Except String ((Option (K × K) × Option (K × K)) × List (String × (K × K) × List String))
  | [], st => .ok st
  | t :: q, st => (t.label.trace.foldlM (scanAgent x y hits t.label) st).bind fun st => scan x y hits (q ++ t.kids) st
termination_by q => sizeL q
decreasing_by rw [sizeL_append]; simp only [sizeL]; rw [size_eq t]; omega

/-- 577-583, with `scale_factor = 0.25` (52). -/
def axis (r : Option (K × K)) : Option (K × K) := r.map fun r => (r.1 - 1 / 4 * (r.2 - r.1), r.2 + 1 / 4 * (r.2 - r.1))

/-- A figure. -/
structure Figure (K : Type) where
  shapes : List (String × Shape K)
  marks : List (String × (K × K) × List String)
  xaxis : Option (K × K)
  yaxis : Option (K × K)
  deriving DecidableEq

/-- 502-505 with `check_dim` 2265-2275: number of columns of the trace of the first agent. -/
def checkDims (agents : List String) (n : PNode K) (x y : Nat) : Except String Unit :=
  match agents with
  | [] => .error "IndexError"
  | a :: _ => match Dict.get? n.trace a with
    | none => .error "KeyError"
    | some [] => .error "IndexError"
    | some (r :: _) => if r.length ≤ x then .error "ValueError" else if r.length ≤ y then .error "ValueError" else .ok ()

/-- `reachtube_tree`, 481-586: the figure and the tree afterwards. `agents` are the keys of `root.agent`; `labels` is
`label_mode != "None"`. -/
def reachtubeTree (agents : List String) (x y : Nat) (rate : Nat) (combine : Option Int) (labels : Bool) (t : RTree (PNode K)) :
    Except String (Figure K × RTree (PNode K)) :=
  (sampleTrace rate t).bind fun t => (checkDims agents t.label x y).bind fun _ =>
    (agents.mapM (fun a => tubeLoop a x y combine [t])).bind fun s =>
      (scan x y labels [t] ((none, none), [])).map fun st => (⟨s.flatten, st.2, axis st.1.1, axis st.1.2⟩, t)

/-- `simulation_tree`, 61-171. Violated assertions are always marked (138). -/
def simulationTree (agents : List String) (x y : Nat) (rate : Nat) (t : RTree (PNode K)) : Except String (Figure K × RTree (PNode K)) :=
  (sampleTrace rate t).bind fun t => (checkDims agents t.label x y).bind fun _ =>
    (agents.mapM (fun a => lineLoop a x y [t])).bind fun s =>
      (scan x y true [t] ((none, none), [])).map fun st => (⟨s.flatten, st.2, axis st.1.1, axis st.1.2⟩, t)

/-! ### `reachtube_tree_slice` -/

/-- 2637-2670, `combine_rect <= 1`, for rows with their times: rectangles that start before `tl` are skipped, the loop ends at
the first one that ends after `tu`; no `tu` is `inf`. -/
def sliceBoxes (tl : K) (tu : Option K) : List (K × (K × K)) → Except String (List (Shape K))
  | [] => .ok []
  | [a] => if a.1 < tl then .ok [] else .error "IndexError"
  | a :: b :: l => if a.1 < tl then sliceBoxes tl tu l else match tu with
    | none => (sliceBoxes tl tu l).map (fun s => .filled (box a.2 b.2) :: s)
    | some u => if u < b.1 then .ok [] else (sliceBoxes tl tu l).map (fun s => .filled (box a.2 b.2) :: s)

/-- The times of the rows. -/
def times (tr : List (Row K)) : Except String (List K) :=
  tr.mapM fun r => match r[0]? with
    | some t => .ok t
    | none => .error "IndexError"

/-- `reachtube_tree_single_slice`, 2582-2795, with the default `combine_rect=1`. -/
def sliceLoop (aid : String) (x y : Nat) (tl : K) (tu : Option K) : List (RTree (PNode K)) → Except String (List (String × Shape K))
  | [] => .ok []
  | t :: q => match Dict.get? t.label.trace aid with
    | none => .error "KeyError"
    | some tr => (project x y tr).bind fun ps => (times tr).bind fun ts =>
        (if single ps then .ok (ps.head?.toList.map .marker) else sliceBoxes tl tu (ts.zip ps)).bind fun s =>
        (sliceLoop aid x y tl tu (q ++ t.kids)).map fun r => s.map (fun s => (aid, s)) ++ r
termination_by q => sizeL q
decreasing_by rw [sizeL_append]; simp only [sizeL]; rw [size_eq t]; omega

/-- `reachtube_tree_slice`, 2435-2549, with the defaults but for `t_lower` and `t_upper`: the shapes. -/
def reachtubeSlice (agents : List String) (x y : Nat) (tl tu : Option K) (t : RTree (PNode K)) : Except String (List (String × Shape K)) :=
  (sampleTrace 1 t).bind fun t => (checkDims agents t.label x y).bind fun _ =>
    (agents.mapM (fun a => sliceLoop a x y (tl.getD 0) tu [t])).map List.flatten

/-! ### the frames of the animations -/

/-- The frames: for each time the agents with what is shown of them. -/
abbrev Frames (K A : Type) := Dict K (Dict String (List A))

/-- 636-644 (and 228-236): add something to a frame. -/
def addFrame {A : Type} (fr : Frames K A) (time : K) (aid : String) (a : A) : Frames K A :=
  match Dict.get? fr time with
  | none => Dict.set fr time [(aid, [a])]
  | some d => match Dict.get? d aid with
    | none => Dict.set fr time (Dict.set d aid [a])
    | some l => Dict.set fr time (Dict.set d aid (l ++ [a]))

/-- 628-644: the rectangles of a trace; the last row is ignored if it has no partner. -/
def frameRects (rnd : K → K) (aid : String) : List (Row K) → Frames K (Row K × Row K) → Except String (Frames K (Row K × Row K))
  | a :: b :: l, fr => match a[0]? with
    | none => .error "IndexError"
    | some t => frameRects rnd aid l (addFrame fr (rnd t) aid (a, b))
  | _, fr => .ok fr

/-- 624-644: one agent of a node. The first eight rows are dropped if the trace starts after time 0. -/
def frameAgent (rnd : K → K) (fr : Frames K (Row K × Row K)) (e : String × List (Row K)) : Except String (Frames K (Row K × Row K)) :=
  match e.2 with
  | [] => .error "IndexError"
  | r :: _ => match r[0]? with
    | none => .error "IndexError"
    | some t => frameRects rnd e.1 (if 0 < t then e.2.drop 8 else e.2) fr

/-- 621-646: the loop takes the last node of the queue and appends its children; the queue is held in reverse. -/
def frameLoop (rnd : K → K) : List (RTree (PNode K)) → Frames K (Row K × Row K) → Except String (Frames K (Row K × Row K))
  | [], fr => .ok fr
  | t :: s, fr => (t.label.trace.foldlM (frameAgent rnd) fr).bind fun fr => frameLoop rnd (t.kids.reverse ++ s) fr
termination_by q => sizeL q
decreasing_by
  rw [sizeL_append]; simp only [sizeL]; rw [size_eq t]
  have : ∀ l : List (RTree (PNode K)), sizeL l.reverse = sizeL l := by
    intro l; induction l with
    | nil => rfl
    | cons a l ih => rw [List.reverse_cons, sizeL_append, ih]; simp [sizeL, Nat.add_comm]
  rw [this]; omega

/-- `reachtube_anime`, 589-763: the frames (with the whole rows; the figure shows their dimensions `x_dim` and `y_dim`). Without
frames `5000 / num_points` raises. `rnd` is rounding to the digits of the time step. -/
def reachtubeAnime (rnd : K → K) (rate : Nat) (t : RTree (PNode K)) : Except String (Frames K (Row K × Row K)) :=
  (sampleTrace rate t).bind fun t => (frameLoop rnd [t] []).bind fun fr => if fr = [] then .error "ZeroDivisionError" else .ok fr

/-- 228-236: add a row to a frame, unless it is there. -/
def addRow (fr : Frames K (Row K)) (time : K) (aid : String) (a : Row K) : Frames K (Row K) :=
  match Dict.get? fr time with
  | none => Dict.set fr time [(aid, [a])]
  | some d => match Dict.get? d aid with
    | none => Dict.set fr time (Dict.set d aid [a])
    | some l => if a ∈ l then fr else Dict.set fr time (Dict.set d aid (l ++ [a]))

/-- 220-236: one row. -/
def frameRow (rnd : K → K) (aid : String) (fr : Frames K (Row K)) (r : Row K) : Except String (Frames K (Row K)) :=
  match r[0]? with
  | none => .error "IndexError"
  | some t => .ok (addRow fr (rnd t) aid r)

/-- 218-236: one agent of a node. -/
def rowAgent (rnd : K → K) (fr : Frames K (Row K)) (e : String × List (Row K)) : Except String (Frames K (Row K)) :=
  e.2.foldlM (frameRow rnd e.1) fr

/-- 215-237: the queue is held in reverse. -/
def rowLoop (rnd : K → K) : List (RTree (PNode K)) → Frames K (Row K) → Except String (Frames K (Row K))
  | [], fr => .ok fr
  | t :: s, fr => (t.label.trace.foldlM (rowAgent rnd) fr).bind fun fr => rowLoop rnd (t.kids.reverse ++ s) fr
termination_by q => sizeL q
decreasing_by
  rw [sizeL_append]; simp only [sizeL]; rw [size_eq t]
  have : ∀ l : List (RTree (PNode K)), sizeL l.reverse = sizeL l := by
    intro l; induction l with
    | nil => rfl
    | cons a l ih => rw [List.reverse_cons, sizeL_append, ih]; simp [sizeL, Nat.add_comm]
  rw [this]; omega

/-- `simulation_anime`, 173-478, with `anime_mode="normal"`: the frames. Frame 0 is looked up (253). -/
def simulationAnime (rnd : K → K) (rate : Nat) (t : RTree (PNode K)) : Except String (Frames K (Row K)) :=
  (sampleTrace rate t).bind fun t => (rowLoop rnd [t] []).bind fun fr =>
    if fr = [] then .error "ZeroDivisionError" else match Dict.get? fr 0 with
      | none => .error "KeyError"
      | some _ => .ok fr

end Verif.Plot
