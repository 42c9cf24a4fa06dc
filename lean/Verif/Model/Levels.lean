import Verif.Model.Basic
import Verif.Model.Map3d

/-!
`verse/map/example_map/simple_map_3d.py`: changing between the lanes of `SimpleMap6` (136-208) and `SimpleMap7` (211-257), and `LaneMap_3d.h`, `h_exist` and `trans_func`
(verse/map/lane_map_3d.py 32-34, 44-60).

Simplifications
* the lanes of `SimpleMap6` are given by their names and neighbours only;
* exceptions are values.
-/

set_option autoImplicit false

namespace Verif.Levels
open Verif.Lane3d

/-- A mode as it comes from a decision logic: a text or a member of an enumeration. -/
inductive Name
  | str (s : String)
  | member (s : String)
  deriving DecidableEq

/-- `self.h_dict` of both maps, 180-189, 229-238. -/
def hDict : Dict (String × String × String) String :=
  [(("T1", "Normal", "MoveUp"), "M10"), (("T0", "Normal", "MoveDown"), "M01"), (("T1", "Normal", "MoveDown"), "M12"), (("T2", "Normal", "MoveUp"), "M21"),
    (("M10", "MoveUp", "Normal"), "T0"), (("M01", "MoveDown", "Normal"), "T1"), (("M12", "MoveDown", "Normal"), "T2"), (("M21", "MoveUp", "Normal"), "T1")]

/-- Looking up a key: a member of an enumeration is different from every text. -/
def lookup (l a b : Name) : Option String :=
  match l, a, b with
  | .str l, .str a, .str b => Dict.get? hDict (l, a, b)
  | _, _, _ => none

/-- `h` of `SimpleMap6` and `SimpleMap7`, 191-192, 240-241. -/
def h (l a b : Name) : Except String String :=
  match lookup l a b with
  | some r => .ok r
  | none => .error "KeyError"

/-- `h_exist` of `SimpleMap6` and `SimpleMap7`, 194-198, 243-247. -/
def hExist (l a b : Name) : Bool := (lookup l a b).isSome

/-- `isinstance(x, Enum)`, `x.name`, lane_map_3d.py 45-50. -/
def Name.text : Name → Name
  | .str s => .str s
  | .member s => .str s

/-- `LaneMap_3d.h`, lane_map_3d.py 44-51, for a function `h_func`. -/
def baseH (hFunc : Name → Name → Name → Except String String) (l a b : Name) : Except String String := hFunc l.text a.text b.text

/-- `trans_func` of `SimpleMap6` and `SimpleMap7`, 200-208, 249-257: the empty text raises. -/
def trans (l : String) : Except String String :=
  match l.toList.getLast? with
  | none => .error "IndexError"
  | some c => .ok (if c = '0' then "T0" else if c = '1' then "T1" else if c = '2' then "T2" else "")

/-- `LaneMap_3d.trans_func`, lane_map_3d.py 32-34, which the other maps have. -/
def baseTrans (l : String) : Except String String :=
  match l.toList.getLast? with
  | none => .error "IndexError"
  | some c => .ok (String.ofList ['T', c])

/-- The lanes and neighbours of `SimpleMap6`, 176-178. -/
def map6 : Neighbours :=
  ((((((Neighbours.empty.add "T0").add "T1").add "T2").pair "T1" "T0" .up).1).pair "T1" "T2" .down).1

/-- The lanes of `SimpleMap7`, 227, with no neighbours. -/
def map7 : Neighbours := ((Neighbours.empty.add "T1").add "T0").add "T2"

/-- The names of the lanes of `SimpleMap1`, 15-33. -/
def lanes1 : List String := ["Lane0", "Lane1", "Lane2", "Lane3", "Lane4"]

/-- The start and the end of the lanes of `SimpleMap7`, 214-227, for its `width` 4. -/
def ends7 : Dict String ((Int × Int × Int) × (Int × Int × Int)) :=
  [("T1", ((0, 0, 0), (100, 0, 0))), ("T0", ((0, 0, 2 * 4), (100, 0, 2 * 4))), ("T2", ((0, 0, -2 * 4), (100, 0, -2 * 4)))]

/-- One agent that changes its mode: its lane mode and its mode, for a list of modes it changes to. -/
def run : List String → String × String → Except String (String × String)
  | [], st => .ok st
  | m :: ms, st => (h (.str st.1) (.str st.2) (.str m)).bind fun l => run ms (l, m)

end Verif.Levels
