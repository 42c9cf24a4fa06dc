import Verif.Model.Lane3d

/-!
`verse/map/lane_3d.py` and `verse/map/lane_map_3d.py`: lanes of several segments, waypoints, neighbours.

Simplifications
* `none` stands for an exception.
* `float("inf")` as first minimum: the first segment in question always replaces it.
* The dictionaries `curr_wp`, `curr_seg` and `wps` are modelled at the key of one agent; `get_next_point` touches no other key.
* `next_point == curr_point`, which gives `nan` in numpy (and then a comparison that is false), gives the inner product zero here.
-/

set_option autoImplicit false

namespace Verif.Lane3d

/-- A segment object. Python compares segments by identity. -/
structure Obj where
  id : Nat
  seg : Segment

/-- `position` of either kind of segment, lane_segment_3d.py:213-217, 353-358. -/
noncomputable def Segment.position : Segment → ℝ → ℝ → ℝ → V3
  | .straight s, l, r, t => s.position l r t
  | .circular c, l, r, t => c.position l r t

/-- `is_on`, lane_3d.py:31. -/
def isOn (longitudinal length : ℝ) : Prop := 0 - 1 ≤ longitudinal ∧ longitudinal < length

open scoped Classical in
/-- The loop of `get_lane_segment`, lane_3d.py:29-37: the index, the segment and its lateral distance, and the possible segments. -/
noncomputable def scanSegments (rnd : Nat → ℝ → ℝ) (p : V3) : List Obj → Nat → Option (Nat × Obj × ℝ) → List Obj → Option (Option (Nat × Obj × ℝ) × List Obj)
  | [], _, best, possible => some (best, possible)
  | o :: os, i, best, possible =>
    (o.seg.coords rnd p).bind fun c =>
      if isOn c.1 o.seg.length then
        let best := match best with
          | none => some (i, o, c.2.1)
          | some b => if c.2.1 < b.2.2 then some (i, o, c.2.1) else some b
        scanSegments rnd p os (i + 1) best (possible ++ [o])
      else scanSegments rnd p os (i + 1) best possible

/-- `Lane_3d.get_lane_segment`, lane_3d.py:24-38. -/
noncomputable def getLaneSegment (rnd : Nat → ℝ → ℝ) (segs : List Obj) (p : V3) : Option (Option (Nat × Obj × ℝ) × List Obj) :=
  scanSegments rnd p segs 0 none []

/-- `Lane_3d.get_l_r_theta`, lane_3d.py:70-75; `none` also if no segment is found (`None.local_coordinates`). -/
noncomputable def lrTheta (rnd : Nat → ℝ → ℝ) (segs : List Obj) (p : V3) : Option (ℝ × ℝ × ℝ) :=
  (getLaneSegment rnd segs p).bind fun f => f.1.bind fun b => b.2.1.seg.coords rnd p

/-- `Lane_3d.get_longitudinal_position`, lane_3d.py:53-58. -/
noncomputable def longitudinalPosition (rnd : Nat → ℝ → ℝ) (segs : List Obj) (p : V3) : Option ℝ :=
  (getLaneSegment rnd segs p).bind fun f => f.1.bind fun b => (b.2.1.seg.coords rnd p).map fun c =>
    (segs.take b.1).foldl (fun acc o => acc + o.seg.length) c.1

/-- `Lane_3d.get_lateral_distance`, lane_3d.py:60-63. -/
noncomputable def lateralDistance (rnd : Nat → ℝ → ℝ) (segs : List Obj) (p : V3) : Option ℝ :=
  (getLaneSegment rnd segs p).bind fun f => f.1.bind fun b => (b.2.1.seg.coords rnd p).map fun c => c.2.1

/-! ### Waypoints -/

/-- The entries of `curr_wp`, `curr_seg` and `wps` for one agent, lane_map_3d.py:28-30. -/
structure Track where
  wp : Option (V3 × V3)
  seg : Option Obj
  wps : List (V3 × V3)

/-- `LaneMap_3d.check_guard_box`, lane_map_3d.py:237-242; `none` for `IndexError`. -/
noncomputable def guardBox : List ℝ → List ℝ → List ℝ → Option Bool
  | [], _, _ => some true
  | d :: ds, s :: ss, b :: bs => open scoped Classical in if s < d - b / 2 ∨ d + b / 2 < s then some false else guardBox ds ss bs
  | _ :: _, _, _ => none

open scoped Classical in
/-- The choice among the possible next segments, lane_map_3d.py:272-279. -/
noncomputable def pickNext (curr velocity : V3) (lateral theta : ℝ) : List Obj → Option ℝ → Option Obj → Option Obj
  | [], _, next => next
  | o :: os, maxIn, next =>
    let delta := (o.seg.position 0 lateral theta).sub curr
    let d := (delta.div delta.norm).dot velocity
    match maxIn with
    | none => pickNext curr velocity lateral theta os (some d) (some o)
    | some m => if m < d then pickNext curr velocity lateral theta os (some d) (some o) else pickNext curr velocity lateral theta os (some m) next

/-- Where the agent aims at in the coordinates of the segment, lane_map_3d.py:260-268. -/
noncomputable def aim (est longitudinal lateral : ℝ) : ℝ × ℝ :=
  if lateral / 0.7 ≤ est then (longitudinal + Real.sqrt (est ^ 2 - lateral ^ 2), 0)
  else (longitudinal + est * Real.sqrt (1 - 0.7 ^ 2), lateral - 0.7 * est)

/-- The segment that is used, and the entry of `curr_seg`, lane_map_3d.py:252-257. Segments with the same identity are the same object. -/
def currentSegment (found : Option Obj) (possible : List Obj) (stored : Option Obj) : Option Obj × Option Obj :=
  match stored with
  | none => (found, found)
  | some s =>
    match possible.find? fun o => o.id == s.id with
    | some o => (some o, some s)
    | none => (found, some s)

/-- The segment of `get_lane_segment`, or `None`. -/
def foundSeg (f : Option (Nat × Obj × ℝ) × List Obj) : Option Obj := f.1.map fun b => b.2.1

/-- `next_point` and the entry of `curr_seg`, lane_map_3d.py:260-281. -/
noncomputable def target (rnd : Nat → ℝ → ℝ) (lane : List Obj) (curr velocity : V3) (est : ℝ) (seg : Obj) (stored : Option Obj) (c : ℝ × ℝ × ℝ) : Option (V3 × Option Obj) :=
  let a := aim est c.1 c.2.1
  let next := seg.seg.position a.1 a.2 c.2.2
  if seg.seg.length < a.1 then
    (getLaneSegment rnd lane next).bind fun g =>
      (pickNext curr velocity c.2.1 c.2.2 g.2 none (foundSeg g)).map fun o => (o.seg.position 0 c.2.1 c.2.2, some o)
  else some (next, stored)

/-- `curr_point`, lane_map_3d.py:246-251; `pos` is `none` if it is not an array. -/
def currPoint (pos : Option V3) (s : Track) : Option V3 :=
  match pos with
  | some p => some p
  | none => s.wp.map Prod.snd

/-- `LaneMap_3d.get_next_point`, lane_map_3d.py:244-291, for `est_len` as given: the waypoint and the new entries. -/
noncomputable def nextPoint (rnd : Nat → ℝ → ℝ) (lane : List Obj) (pos : Option V3) (velocity : V3) (est : ℝ) (s : Track) : Option ((V3 × V3) × Track) :=
  (currPoint pos s).bind fun curr =>
  (getLaneSegment rnd lane curr).bind fun f =>
  (currentSegment (foundSeg f) f.2 s.seg).1.bind fun seg =>
  (seg.seg.coords rnd curr).bind fun c =>
  (target rnd lane curr velocity est seg (currentSegment (foundSeg f) f.2 s.seg).2 c).map fun r =>
  ((curr, r.1), ⟨some (curr, r.1), r.2, s.wps ++ [(curr, r.1)]⟩)

/-! ### Neighbours -/

/-- The four relations, lane_map_3d.py:79-90. -/
inductive Side
  | left | right | up | down
  deriving DecidableEq

/-- The names of the lanes and the four dictionaries of neighbours, lane_map_3d.py:14-24. Lists are in the order of `append`. -/
structure Neighbours where
  lanes : List String
  lists : Side → String → Option (List String)

/-- `LaneMap_3d.__init__` with no lanes, lane_map_3d.py:13-18. -/
def Neighbours.empty : Neighbours := ⟨[], fun _ _ => none⟩

/-- `add_lanes` (and the loop of `__init__`) for one lane, lane_map_3d.py:38-42. -/
def Neighbours.add (m : Neighbours) (id : String) : Neighbours :=
  ⟨if id ∈ m.lanes then m.lanes else m.lanes ++ [id], fun s x => if x = id then some [] else m.lists s x⟩

/-- `d[src].append(dest)`; `none` for `KeyError`. -/
def Neighbours.append (m : Neighbours) (s : Side) (src dest : String) : Option Neighbours :=
  (m.lists s src).map fun l => ⟨m.lanes, fun s' x => if s' = s ∧ x = src then some (l ++ [dest]) else m.lists s' x⟩

/-- The other dictionary that is changed, lane_map_3d.py:80-90. -/
def Side.other : Side → Side
  | .left => .right
  | .right => .left
  | .up => .down
  | .down => .up

/-- `pair_lanes`, lane_map_3d.py:74-92, for a relation that exists: the dictionaries afterwards, and whether it ended without `KeyError`. -/
def Neighbours.pair (m : Neighbours) (src dest : String) (s : Side) : Neighbours × Bool :=
  match m.append s src dest with
  | none => (m, false)
  | some m1 =>
    match m1.append s.other dest src with
    | none => (m1, false)
    | some m2 => (m2, true)

/-- `has_left`, `has_right`, `has_up`, `has_down`, lane_map_3d.py:94-101, 112-119, 130-137, 148-155; `none` for `KeyError`. -/
def Neighbours.has (m : Neighbours) (s : Side) (x : String) : Option Bool :=
  if x ∈ m.lanes then (m.lists s x).map fun l => decide (0 < l.length) else some false

/-- `left_lane`, `right_lane`, `up_lane`, `down_lane`, lane_map_3d.py:103-110, 121-128, 139-146, 157-164; `none` for `ValueError`, `IndexError` and the failing assertion. -/
def Neighbours.lane (m : Neighbours) (s : Side) (x : String) : Option String :=
  if m.lanes.all (fun y => (m.lists s y).isSome) then (m.lists s x).bind List.head? else none

end Verif.Lane3d
