import Verif.Model.Lane
import Verif.Model.Plot

/-!
`draw_map`, verse/plotter/plotter2D.py:2093-2262: the picture of a map.

Simplifications
* exact real numbers; line styles and the texts of colours are left out;
* the three channels of a colour are equal, since the first is white and the last is black: one number stands for them;
* the marker for the scale of colours, 2239-2258, is not among the shapes.
-/

set_option autoImplicit false

namespace Verif.DrawMap
open Verif.Lane

/-- A segment of a lane, by its `type`. -/
inductive Seg where
  | straight (start fin : ℝ × ℝ) (width : ℝ)
  | circular (l : Circular) (width : ℝ)
  | unknown

/-- A lane: its segments and its `speed_limit`. -/
structure DLane where
  segs : List Seg
  limit : Option ℝ

/-- `fill_type`. -/
inductive Fill where
  | lines
  | detailed
  | fill
  | other
  deriving DecidableEq

/-- What is drawn for a segment: its corners, whether it is filled, and the colour if it stands for a speed limit. -/
structure Area where
  corners : List (ℝ × ℝ)
  filled : Bool
  shade : Option Int

/-- `np.linspace(start, stop, num=100)`, 2178-2180. -/
noncomputable def phases (start stop : ℝ) : List ℝ := (List.range 100).map (fun i : Nat => start + (i : ℝ) * ((stop - start) / 99))

/-- The points of a list of phases on a circle, 2182-2186. -/
noncomputable def onCircle (center : ℝ × ℝ) (r : ℝ) (ps : List ℝ) : List (ℝ × ℝ) := ps.map (fun p => (Real.cos p * r + center.1, Real.sin p * r + center.2))

/-- `trace_x` and `trace_y`, 2129-2134 and 2178-2188. -/
noncomputable def trace : Seg → Option (List (ℝ × ℝ))
  | .straight start fin w =>
    let n := (Straight.new start fin).latDir
    let start1 := (start.1 + w / 2 * n.1, start.2 + w / 2 * n.2)
    let end1 := (fin.1 + w / 2 * n.1, fin.2 + w / 2 * n.2)
    let start2 := (start.1 - w / 2 * n.1, start.2 - w / 2 * n.2)
    let end2 := (fin.1 - w / 2 * n.1, fin.2 - w / 2 * n.2)
    some [start1, end1, end2, start2, start1]
  | .circular l w =>
    let inner := onCircle l.center (l.radius - w / 2) (phases l.startPhase l.endPhase)
    let outer := (onCircle l.center (l.radius + w / 2) (phases l.startPhase l.endPhase)).reverse
    some (inner ++ outer ++ inner.take 1)
  | .unknown => none

/-- 2139-2176 for straight segments, 2193-2235 for circular ones: what is added to the figure. -/
def area (f : Fill) (limit : Option ℝ) (shade : Option Int) (s : Seg) (cs : List (ℝ × ℝ)) : List Area :=
  match f, s, limit with
  | .lines, _, _ => [⟨cs, false, none⟩]
  | .detailed, .straight _ _ _, none => [⟨cs, false, none⟩]
  | .detailed, _, none => []
  | .detailed, _, some _ => [⟨cs, true, shade⟩]
  | .fill, _, _ => [⟨cs, true, none⟩]
  | .other, _, _ => []

/-- The figure so far and the ranges of the axes, 2097-2098. -/
structure Pic where
  areas : List Area
  xr : Option (ℝ × ℝ)
  yr : Option (ℝ × ℝ)

/-- 2127-2237: one segment. -/
noncomputable def drawSeg (f : Fill) (limit : Option ℝ) (shade : Option Int) (p : Pic) (s : Seg) : Except String Pic :=
  match trace s with
  | none => .error "ValueError"
  | some cs => .ok ⟨p.areas ++ area f limit shade s cs, Plot.widen p.xr (cs.map Prod.fst), Plot.widen p.yr (cs.map Prod.snd)⟩

/-- `int(…)` of a real number. -/
noncomputable def trunc (x : ℝ) : Int := if 0 ≤ x then ⌊x⌋ else ⌈x⌉

/-- 2117-2126: the colour of a lane, `lo` and `hi` are `speed_min` and `speed_max`. -/
noncomputable def laneShade (f : Fill) (lo hi : ℝ) (limit : Option ℝ) : Except String (Option Int) :=
  match f, limit with
  | .detailed, some s => if hi - lo = 0 then .error "ZeroDivisionError" else .ok (some (trunc (255 + (s - lo) / (hi - lo) * (0 - 255))))
  | _, _ => .ok none

/-- 2112-2237: one lane. -/
noncomputable def drawLane (f : Fill) (lo hi : ℝ) (p : Pic) (l : DLane) : Except String Pic :=
  (laneShade f lo hi l.limit).bind fun c => l.segs.foldlM (drawSeg f l.limit c) p

/-- `list(filter(None, speed_dict.values()))`, 2102-2103: neither `None` nor 0. -/
noncomputable def limits (lanes : List DLane) : List ℝ := (lanes.filterMap DLane.limit).filter (fun s => decide (s ≠ 0))

/-- `draw_map` for the lanes of a map, 2093-2262. The ranges of the axes are `none` if they are from infinity to minus infinity. -/
noncomputable def drawMap (f : Fill) (lanes : List DLane) : Except String Pic :=
  match f, limits lanes with
  | .detailed, [] => .error "ValueError"
  | .detailed, s :: l => lanes.foldlM (drawLane f (l.foldl min s) (l.foldl max s)) ⟨[], none, none⟩
  | f, _ => lanes.foldlM (drawLane f 0 0) ⟨[], none, none⟩

end Verif.DrawMap
