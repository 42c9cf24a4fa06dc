import Verif.Model.Plot
import Mathlib.Data.List.Sort
import Mathlib.Algebra.Order.Ring.Int

/-!
`reachtube_tree_video`, verse/plotter/plotter2D.py:765-1065, and `_export_reachtube_video_direct`, 1101-1779: the frames of a video of reachtubes.

Simplifications, beyond those of `Verif.Model.Plot`
* colours, texts, legends, the slider, additional traces, the map and the writing of files are not modelled;
* `sorted` of the times, 902, is an insertion sort;
* the indices of `np.linspace(0, n - 1, m, dtype=int)` are computed exactly;
* for `.gif` and `.mp4` the axes are those of `scale_type="trace"`, without ranges given by the user.
-/

set_option autoImplicit false
set_option linter.unusedSectionVars false

namespace Verif.Plot
open Verif.Spec Verif.ATree

variable {K : Type} [Field K] [LinearOrder K]

/-- `(agent_id, rect)`, 897-900. -/
abbrev Item (K : Type) := String × (Row K × Row K)

/-- `timed_agent_reach_dict`, 876, and the ranges of the axes, 878-879. -/
structure Timed (K : Type) where
  timed : Dict K (List (Item K))
  xr : Option (K × K)
  yr : Option (K × K)

/-- 898-900. -/
def addTimed (d : Dict K (List (Item K))) (time : K) (it : Item K) : Dict K (List (Item K)) :=
  Dict.set d time ((Dict.get? d time).getD [] ++ [it])

/-- 886-900: the rectangles of one agent in a node. -/
def videoRects (rnd : K → K) (x y : Nat) (aid : String) : List (Row K) → Timed K → Except String (Timed K)
  | a :: b :: l, st => match a[0]?, a[x]?, a[y]?, b[x]?, b[y]? with
    | some t, some ax, some ay, some bx, some by' =>
      videoRects rnd x y aid l ⟨addTimed st.timed (rnd t) (aid, (a, b)), widen st.xr [ax, bx], widen st.yr [ay, by']⟩
    | _, _, _, _, _ => .error "IndexError"
  | _, st => .ok st

/-- 881-900: one node. -/
def videoNode (rnd : K → K) (x y : Nat) (st : Timed K) (t : RTree (PNode K)) : Except String (Timed K) :=
  t.label.trace.foldlM (fun st e => videoRects rnd x y e.1 e.2 st) st

/-- `np.linspace(0, n - 1, m, dtype=int)`, 912 and 920. -/
def linspaceIdx (n m : Nat) : List Nat := if m = 1 then [0] else (List.range m).map (fun i => i * (n - 1) / (m - 1))

/-- 909-915: at most `cap` elements. -/
def thin {α : Type} (cap : Option Nat) (l : List α) : List α :=
  match cap with
  | none => l
  | some m => if m < l.length then (linspaceIdx l.length m).filterMap (fun i => l[i]?) else l

/-- `time_to_trace_indices`, 956-981 (1340-1359): the rectangles are numbered in the order of their times. -/
def number : Nat → List (K × List (Item K)) → List (K × List Nat)
  | _, [] => []
  | k, (t, its) :: l => (t, List.range' k its.length) :: number (k + its.length) l

/-- 988-991 (1364-1367), the inner loop: what is left of the times, from `cursor` on, is an argument. The indices that are reached, and what is left then. -/
def advance (t : K) : List (K × List Nat) → List Nat × List (K × List Nat)
  | [] => ([], [])
  | s :: rest => if s.1 ≤ t then (s.2 ++ (advance t rest).1, (advance t rest).2) else ([], s :: rest)

/-- `frame_new_trace_indices`, 1361-1368. -/
def newIndices : List K → List (K × List Nat) → List (List Nat)
  | [], _ => []
  | t :: ts, rest => (advance t rest).1 :: newIndices ts (advance t rest).2

/-- 985-998: for each frame which rectangles are visible. -/
def htmlFrames : List Bool → List K → List (K × List Nat) → List (List Bool)
  | _, [], _ => []
  | vis, t :: ts, rest =>
    let vis' := (advance t rest).1.foldl (fun (v : List Bool) i => v.set i true) vis
    vis' :: htmlFrames vis' ts (advance t rest).2

/-- The video: the rectangles, the times of the frames, the visible rectangles of the frames (HTML), the rectangles that are painted anew for each frame (GIF and
MP4), and the ranges of the axes. -/
structure Video (K : Type) where
  data : List (Item K)
  times : List K
  visible : List (List Bool)
  painted : List (List Nat)
  xaxis : Option (K × K)
  yaxis : Option (K × K)
  deriving DecidableEq

/-- `reachtube_tree_video`, 765-1065; `cap` is `effective_max_frame_steps`. `none`: no rectangles, 903-906. -/
def video (rnd : K → K) (agents : List String) (x y rate : Nat) (cap : Option Nat) (t : RTree (PNode K)) : Except String (Option (Video K)) :=
  (sampleTrace rate t).bind fun t => (checkDims agents t.label x y).bind fun _ =>
    ((bfs [t]).foldlM (videoNode rnd x y) ⟨[], none, none⟩).bind fun st =>
      let times := (Dict.keys st.timed).insertionSort (· ≤ ·)
      if times = [] then .ok none
      else
        let frames := thin cap times
        if frames = [] then .error "ZeroDivisionError"
        else
          let steps := times.map (fun t => (t, (Dict.get? st.timed t).getD []))
          let data := steps.flatMap Prod.snd
          if data.all (fun it => decide (it.1 ∈ agents)) then
            .ok (some ⟨data, frames, htmlFrames (List.replicate data.length false) frames (number 0 steps), newIndices frames (number 0 steps), axis st.xr, axis st.yr⟩)
          else .error "ValueError"

/-! ### Pixels -/

/-- The part of the picture that is drawn to: `left`, `top`, `plot_w`, `plot_h`, 1374-1382, and the ranges of the axes `x_lo`, `x_hi`, `y_lo`, `y_hi`. -/
structure Window (K : Type) where
  left : Int
  top : Int
  w : Int
  h : Int
  xlo : K
  xhi : K
  ylo : K
  yhi : K

/-- `_to_px`, 1157-1162; `rd` is `int(round(…))`. -/
def toPx (rd : K → Int) (v : Window K) (p : K × K) : Int × Int :=
  let xden := if v.xhi - v.xlo = 0 then 1 else v.xhi - v.xlo
  let yden := if v.yhi - v.ylo = 0 then 1 else v.yhi - v.ylo
  (rd ((v.left : K) + (p.1 - v.xlo) * ((v.w : K) - 1) / xden), rd ((v.top : K) + ((v.h : K) - 1) - (p.2 - v.ylo) * ((v.h : K) - 1) / yden))

/-- 1400-1403: an axis of length 0 is made longer. -/
def grow (r : K × K) : K × K := if r.2 = r.1 then (r.1, r.1 + 1) else r

/-- 1384-1403: the window, for the ranges of the axes. -/
def window (left top w h : Int) (xr yr : K × K) : Window K := ⟨left, top, w, h, (grow xr).1, (grow xr).2, (grow yr).1, (grow yr).2⟩

/-- 1346-1357 and 1727-1733: the rectangle of pixels for the corners of a rectangle: left, top, right, bottom. -/
def rectPixels (rd : K → Int) (v : Window K) (a b : K × K) : Int × Int × Int × Int :=
  let p0 := toPx rd v (min a.1 b.1, min a.2 b.2)
  let p1 := toPx rd v (max a.1 b.1, max a.2 b.2)
  (min p0.1 p1.1, min p0.2 p1.2, max p0.1 p1.1, max p0.2 p1.2)

end Verif.Plot
