import Verif.Model.Guard
import Verif.Model.Lane

/-!
The map queries of the guard evaluation on maps of straight lanes: `verse/map/lane_map.py`, `verse/map/lane.py`.
-/

set_option autoImplicit false

namespace Verif.Grd

open Verif.Lane

variable {K : Type} [Field K] [LinearOrder K]

/-- The map queries on a map of straight lanes: `LaneMap.get_lane_segment`, `get_lateral_distance`, `get_longitudinal_position`
(verse/map/lane_map.py:61-89, verse/map/lane.py:24-54) and `_handle_lateral_set`, `_handle_longitudinal_set`
(verse/automaton/guard.py:598-714). The segments carry the `longitudinal_start` of `Lane._set_longitudinal_start`, so a position on the
segment plus it is the position on the lane (`C36_lane_position`). Without a segment (`none`) Python raises `AttributeError`; here the
query is 0. Unknown lanes (`KeyError`) have no segments here. -/
def straightRoad (lanes : Dict String (List (Straight K))) : Road K (Option (Straight K)) where
  phys l := String.ofList (physLane l.toList)
  segment l p := match p with
    | [x, y] => (getSegment straightOps ((Dict.get? lanes l).getD []) (x, y)).map Prod.snd
    | _ => none
  measure q s p := match s, p with
    | some s, [x, y] => match q with
      | .lateral => (s.coords (x, y)).2
      | .longitudinal => (s.coords (x, y)).1 + s.longStart
    | _, _ => 0
  enclose q s lo hi := match s, lo, hi with
    | some s, [x0, y0], [x1, y1] => match q with
      | .lateral => s.encloseLat (x0, y0) (x1, y1)
      | .longitudinal => s.encloseLong (x0, y0) (x1, y1)
    | _, _, _ => (0, 0)

end Verif.Grd
