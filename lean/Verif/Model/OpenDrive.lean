import Verif.Model.Lane

/-!
verse/map/opendrive_parser.py: lane maps from OpenDRIVE files. Numbers are real numbers. The model starts from the elements of the file; reading
the text (`float`, BeautifulSoup) is not modelled. A side that is missing is one without lanes (`check_valid_side`, 29-43). Names of lane segments, line types, speed
limits and the mean widths, which are not used, are left out.
-/

set_option autoImplicit false

namespace Verif.ODrive
open Verif.Lane

/-- A `lane` element: its number, type and the attribute `a` of its first `width`. The number is not used by the code. -/
structure LaneEl where
  id : Int
  typ : String
  a : ℝ

/-- What is in a `geometry` element: a line, an arc with its curvature, or something else. -/
inductive Shape where
  | line
  | arc (curvature : ℝ)
  | other

/-- A `geometry` element. -/
structure Geometry where
  x : ℝ
  y : ℝ
  hdg : ℝ
  length : ℝ
  shape : Shape

/-- A `road` element. -/
structure Road where
  geometry : List Geometry
  left : List LaneEl
  right : List LaneEl

/-- A lane segment. -/
inductive Piece where
  | straight (l : Straight ℝ) (width : ℝ)
  | circular (l : Circular) (width : ℝ)

/-- The loop over the lanes of one side of a line, opendrive_parser.py 119-146 and 149-177: `n` is the normal vector. -/
noncomputable def straightSide (i f n : ℝ × ℝ) : ℝ → List LaneEl → List Piece
  | _, [] => []
  | alpha, e :: es =>
    if e.typ = "sidewalk" then straightSide i f n (alpha + e.a) es
    else if e.typ = "driving" then
      let mid := alpha + 1 / 2 * e.a
      .straight (Straight.new (i.1 + mid * n.1, i.2 + mid * n.2) (f.1 + mid * n.1, f.2 + mid * n.2)) e.a ::
        straightSide i f n (mid - 1 / 2 * e.a + e.a) es
    else straightSide i f n alpha es

/-- The loop over the lanes of one side of an arc, opendrive_parser.py 231-302 and 305-368: `sgn` is -1 if the radius shrinks away from the
reference line and 1 if it grows. -/
noncomputable def arcSide (center : ℝ × ℝ) (start fin : ℝ) (clockwise : Bool) (sgn : ℝ) : ℝ → List LaneEl → List Piece
  | _, [] => []
  | radius, e :: es =>
    if e.typ = "driving" then
      let mid := radius + sgn * (1 / 2 * e.a)
      .circular ⟨center, mid, start, fin, clockwise, 0⟩ e.a :: arcSide center start fin clockwise sgn (mid - sgn * (1 / 2 * e.a) + sgn * e.a) es
    else if e.typ = "sidewalk" then arcSide center start fin clockwise sgn (radius + sgn * e.a) es
    else arcSide center start fin clockwise sgn radius es

/-- One `geometry` element, opendrive_parser.py 85-372: the segments of the left and of the right lanes. Without a line or an arc
`rg.find("arc")["curvature"]` raises, and so does a curvature of 0 (it gives `inf` with numpy, here an error as well). -/
noncomputable def geometryPieces (g : Geometry) (left right : List LaneEl) : Except String (List Piece × List Piece) :=
  match g.shape with
  | .other => .error "TypeError"
  | .line =>
    let i := (g.x, g.y)
    let f := (g.x + Real.cos g.hdg * g.length, g.y + Real.sin g.hdg * g.length)
    let dx := f.1 - i.1
    let dy := f.2 - i.2
    let r := Real.sqrt (dx ^ 2 + dy ^ 2)
    .ok (straightSide i f (-dy / r, dx / r) 0 left, straightSide i f (dy / r, -dx / r) 0 right)
  | .arc k =>
    if k = 0 then .error "ZeroDivisionError"
    else
      let radius := |1 / k|
      let s := (-Real.sin g.hdg, Real.cos g.hdg)
      let center := if k < 0 then (g.x - s.1 * radius, g.y - s.2 * radius) else (g.x + s.1 * radius, g.y + s.2 * radius)
      let start := arctan2 (g.y - center.2) (g.x - center.1)
      let delta := |g.length / radius|
      let fin := if k < 0 then start - delta else start + delta
      if k < 0 then .ok (arcSide center start fin true 1 radius left, arcSide center start fin false (-1) radius right)
      else .ok (arcSide center start fin false (-1) radius left, arcSide center start fin false 1 radius right)

/-- `road_traverser`, opendrive_parser.py 66-374: for each geometry of each road the segments of the left and of the right lanes. -/
noncomputable def roadTraverser (roads : List Road) : Except String (List (List Piece × List Piece)) :=
  (roads.flatMap fun r => r.geometry.map fun g => (g, r)).mapM fun gr => geometryPieces gr.1 gr.2.left gr.2.right

/-- `condense_matrix`, opendrive_parser.py 47-62: one lane per column. `widths` tells whether the widths were recorded: the rows of `width_2d` have as many
entries as those of the lanes (left) or none (right). Rows of different lengths make no array. -/
def condense (rows : List (List Piece)) (widths : Bool) : Except String (List (List Piece)) :=
  match rows with
  | [] => .error "IndexError"
  | r :: rs =>
    if rs.all (fun q => decide (q.length = r.length)) then
      if r.length = 0 then .ok []
      else if widths then .ok ((List.range r.length).map fun i => (r :: rs).filterMap (fun q => q[i]?))
      else .error "IndexError"
    else .error "ValueError"

/-- The name of the lane in a column, opendrive_parser.py 55. -/
def laneName (i : Nat) : String := "T" ++ toString i

/-- `id[-1]`. -/
def lastChar (s : String) : String := match s.toList.getLast? with
  | some c => String.ofList [c]
  | none => ""

/-- The mode between two lanes, opendrive_parser.py 424, 427, 436, 439. -/
def between (a b : String) : String := "M" ++ lastChar a ++ lastChar b

/-- opendrive_parser.py 421-445: `h_dict`. `total` are the names of the lanes from left to right. -/
def hDict (total : List String) : Dict (String × String × String) String :=
  let pairs := total.zip (total.drop 1)
  let d := pairs.reverse.foldl (fun d p =>
    Dict.set (Dict.set d (p.2, "Normal", "SwitchLeft") (between p.2 p.1)) (between p.2 p.1, "SwitchLeft", "Normal") p.1) []
  pairs.foldl (fun d p =>
    Dict.set (Dict.set d (p.1, "Normal", "SwitchRight") (between p.1 p.2)) (between p.1 p.2, "SwitchRight", "Normal") p.2) d

/-- `left_lane_dict`, lane_map.py 22-25 and opendrive_parser.py 429-431. -/
def leftDict (total : List String) : Dict String (List String) :=
  (total.zip (total.drop 1)).reverse.foldl (fun d p => Dict.set d p.2 [p.1]) (total.foldl (fun d n => Dict.set d n []) [])

/-- `right_lane_dict`, lane_map.py 22-25 and opendrive_parser.py 442-444. -/
def rightDict (total : List String) : Dict String (List String) :=
  (total.zip (total.drop 1)).foldl (fun d p => Dict.set d p.1 [p.2]) (total.foldl (fun d n => Dict.set d n []) [])

/-- What the map has: `lane_dict`, `h_dict`, `left_lane_dict` and `right_lane_dict`. -/
structure OMap where
  lanes : Dict String (List Piece)
  h : Dict (String × String × String) String
  left : Dict String (List String)
  right : Dict String (List String)

/-- `opendrive_map`, opendrive_parser.py 402-447: the last road is ignored. -/
noncomputable def openDriveMap (roads : List Road) : Except String OMap :=
  (roadTraverser roads.dropLast).bind fun rows =>
  (condense (rows.map Prod.fst) true).bind fun left =>
  (condense (rows.map Prod.snd) false).bind fun right =>
    let named := fun (ls : List (List Piece)) => (List.range ls.length).zip ls |>.map fun x => (laneName x.1, x.2)
    let total := (named left).reverse ++ named right
    .ok ⟨total.foldl (fun d x => Dict.set d x.1 x.2) [], hDict (total.map Prod.fst), leftDict (total.map Prod.fst), rightDict (total.map Prod.fst)⟩

end Verif.ODrive
