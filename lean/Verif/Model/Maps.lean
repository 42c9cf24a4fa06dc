import Verif.Model.Lane

/-!
The example maps: `verse/map/example_map/`.
-/

set_option autoImplicit false

namespace Verif.Maps

open Verif.Lane

/-! ### Maps with a table -/

abbrev Table := Dict (String × String × String) String

/-- `h_dict` of `SimpleMap3` and `SimpleMap6` (simple_map2.py:27-36, 167-176) and of `M3` (map_tacas.py:113-122). -/
def table3 : Table := [
  (("T0", "Normal", "SwitchRight"), "M01"),
  (("T1", "Normal", "SwitchRight"), "M12"),
  (("T1", "Normal", "SwitchLeft"), "M10"),
  (("T2", "Normal", "SwitchLeft"), "M21"),
  (("M01", "SwitchRight", "Normal"), "T1"),
  (("M12", "SwitchRight", "Normal"), "T2"),
  (("M10", "SwitchLeft", "Normal"), "T0"),
  (("M21", "SwitchLeft", "Normal"), "T1")]

/-- `h_dict` of `M1`, map_tacas.py:22-34. -/
def tableM1 : Table := [
  (("T0", "Normal", "SwitchRight"), "M01"),
  (("T1", "Normal", "SwitchRight"), "M12"),
  (("T1", "Normal", "SwitchLeft"), "M10"),
  (("T2", "Normal", "SwitchLeft"), "M21"),
  (("T0", "Normal", "Brake"), "T0"),
  (("T1", "Normal", "Brake"), "T1"),
  (("T2", "Normal", "Brake"), "T2"),
  (("M01", "SwitchRight", "Normal"), "T1"),
  (("M12", "SwitchRight", "Normal"), "T2"),
  (("M10", "SwitchLeft", "Normal"), "T0"),
  (("M21", "SwitchLeft", "Normal"), "T1")]

/-- The y coordinates of the lanes of `SimpleMap3` and `M1`: simple_map2.py:18-23, map_tacas.py:13-18. Those of `SimpleMap6`, `M3` at
the beginning of the lanes: simple_map2.py:154-164. -/
def offsets3 : Dict String ℚ := [("T0", 3), ("T1", 0), ("T2", -3)]

/-- `h_dict` of `SimpleMap4` (simple_map2.py:56-73) and `M2` (map_tacas.py:55-72). -/
def table4 : Table := [
  (("M04", "SwitchLeft", "Normal"), "T4"),
  (("M10", "SwitchLeft", "Normal"), "T0"),
  (("M21", "SwitchLeft", "Normal"), "T1"),
  (("M32", "SwitchLeft", "Normal"), "T2"),
  (("T0", "Normal", "SwitchLeft"), "M04"),
  (("T1", "Normal", "SwitchLeft"), "M10"),
  (("T2", "Normal", "SwitchLeft"), "M21"),
  (("T3", "Normal", "SwitchLeft"), "M32"),
  (("T4", "Normal", "SwitchRight"), "M40"),
  (("T0", "Normal", "SwitchRight"), "M01"),
  (("T1", "Normal", "SwitchRight"), "M12"),
  (("T2", "Normal", "SwitchRight"), "M23"),
  (("M40", "SwitchRight", "Normal"), "T0"),
  (("M01", "SwitchRight", "Normal"), "T1"),
  (("M12", "SwitchRight", "Normal"), "T2"),
  (("M23", "SwitchRight", "Normal"), "T3")]

/-- The y coordinates of the lanes of `SimpleMap4` (simple_map2.py:42-51) and `M2` (map_tacas.py:41-50). -/
def offsets4 : Dict String ℚ := [("T0", 3), ("T1", 0), ("T2", -3), ("T3", -6), ("T4", 6)]

/-- `left_dict`, simple_map2.py:74-79. -/
def left4 : Dict String String := [("T0", "T4"), ("T1", "T0"), ("T2", "T1"), ("T3", "T2")]

/-- `right_dict`, simple_map2.py:80-85. -/
def right4 : Dict String String := [("T4", "T0"), ("T0", "T1"), ("T1", "T2"), ("T2", "T3")]

/-- `h_dict` of `SimpleMap6`, `SimpleMap7` of simple_map_3d.py (184-193, 235-244) and of `M5`, `M6` (map_tacas.py:146-155, 235-244). -/
def table3d : Table := [
  (("T1", "Normal", "MoveUp"), "M10"),
  (("T0", "Normal", "MoveDown"), "M01"),
  (("T1", "Normal", "MoveDown"), "M12"),
  (("T2", "Normal", "MoveUp"), "M21"),
  (("M10", "MoveUp", "Normal"), "T0"),
  (("M01", "MoveDown", "Normal"), "T1"),
  (("M12", "MoveDown", "Normal"), "T2"),
  (("M21", "MoveUp", "Normal"), "T1")]

/-- The z coordinates of the lanes of `SimpleMap7` (simple_map_3d.py:219-233) and `M5` (map_tacas.py:130-143). -/
def heights3d : Dict String ℚ := [("T1", 0), ("T0", 8), ("T2", -8)]

/-! ### `SimpleMap4Switch2` -/

/-- `s.startswith("Switch")` -/
def isSwitch (s : List Char) : Bool := "Switch".toList.isPrefixOf s

/-- `SimpleMap4Switch2.h`, simple_map2.py:104-127. -/
def switch2H (lane src dest : List Char) : Except String (Option (List Char)) :=
  if isSwitch src then
    if isSwitch dest then .ok none
    else match lane[2]? with
      | some c => .ok (some ['T', c])
      | none => .error "IndexError"
  else if isSwitch dest then
    let typ := dest.drop 6
    match lane[1]? with
    | none => .error "IndexError"
    | some c =>
      if isDigit c then
        let ind := c.toNat - '0'.toNat
        -- the first `if` (Left) only assigns; the chain below decides
        if typ = "Left2".toList ∧ ind > 1 then .ok (some ('M' :: Nat.toDigits 10 ind ++ Nat.toDigits 10 (ind - 2)))
        else if typ = "Right".toList ∧ ind < 4 then .ok (some ('M' :: Nat.toDigits 10 ind ++ Nat.toDigits 10 (ind + 1)))
        else if typ = "Right2".toList ∧ ind < 3 then .ok (some ('M' :: Nat.toDigits 10 ind ++ Nat.toDigits 10 (ind + 2)))
        else .ok none
      else .error "ValueError"
  else .ok (some lane)

/-! ### The intersection -/

/-- Lane names of the intersection, `NS_0` and `NS_0_1`. Simplification: names are kept split at the underscores, with their numbers. -/
inductive ILane where
  | phys (road : List Char) (i : Nat)
  | virt (road : List Char) (i j : Nat)
deriving DecidableEq

/-- The name, intersection.py:76, 111, 124. -/
def ILane.name : ILane → List Char
  | .phys r i => r ++ '_' :: Nat.toDigits 10 i
  | .virt r i j => r ++ '_' :: Nat.toDigits 10 i ++ '_' :: Nat.toDigits 10 j

/-- `sub in s` -/
def hasSub (sub : List Char) : List Char → Bool
  | [] => sub.isEmpty
  | c :: s => sub.isPrefixOf (c :: s) || hasSub sub s

/-- `Intersection.h`, intersection.py:100-127. -/
def interH (lanes : Nat) (lane : ILane) (src dest : List Char) : Except String (Option ILane) :=
  if isSwitch src then
    if isSwitch dest then .ok none
    else match lane with
      | .virt r _ j => .ok (some (.phys r j))
      | .phys _ _ => .error "ValueError"
  else if isSwitch dest then
    match lane with
    | .phys r i =>
      if hasSub "Left".toList dest ∧ i > 0 then .ok (some (.virt r i (i - 1)))
      else if hasSub "Right".toList dest ∧ i + 1 < lanes then .ok (some (.virt r i (i + 1)))
      else .ok none
    | .virt _ _ _ => .error "ValueError"
  else .ok (some lane)

section
variable (w s l : ℝ)

/-- `off`, intersection.py:27. -/
noncomputable def off (i : Nat) : ℝ := w * (i + 1 / 2)

/-- Start and end of the straight segments, intersection.py:28-43. `w`: width, `s`: size, `l`: length. -/
noncomputable def straightEnds (i : Nat) : String → Option ((ℝ × ℝ) × (ℝ × ℝ))
  | "NR" => some ((-off w i, s + l), (-off w i, s))
  | "SR" => some ((off w i, -(s + l)), (off w i, -s))
  | "ER" => some ((s + l, off w i), (s, off w i))
  | "WR" => some ((-(s + l), -off w i), (-s, -off w i))
  | "NL" => some ((off w i, s), (off w i, s + l))
  | "EL" => some ((s, -off w i), (s + l, -off w i))
  | "SL" => some ((-off w i, -s), (-off w i, -(s + l)))
  | "WL" => some ((-s, off w i), (-(s + l), off w i))
  | "NSR" => some ((-off w i, s), (-off w i, -s))
  | "NSL" => some ((off w i, -s), (off w i, s))
  | "WER" => some ((-s, -off w i), (s, -off w i))
  | "WEL" => some ((s, off w i), (-s, off w i))
  | _ => none

/-- `curve_params`, intersection.py:44-49: center and start. -/
def curveParams : String → Option ((ℝ × ℝ) × ℝ)
  | "NW" => some ((-s, s), 3)
  | "NE" => some ((s, s), 2)
  | "SW" => some ((-s, -s), 0)
  | "SE" => some ((s, -s), 1)
  | _ => none

/-- The circular segments, intersection.py:50-70: `outer` is `io = 1`. -/
noncomputable def curve (i : Nat) (k : String) (outer : Bool) : Option Circular :=
  (curveParams s k).map fun cs =>
    { center := cs.1
      radius := s + w * (i + 1 / 2) * (if outer then 1 else -1)
      startPhase := (cs.2 + (if outer then 0 else 1)) * Real.pi / 2
      endPhase := (cs.2 + (if outer then 1 else 0)) * Real.pi / 2
      clockwise := !outer
      longStart := 0 }

end

/-- The straight lanes and their segments, intersection.py:72-84. -/
def straights : List (String × String × String × String) :=
  [("NS", "NR", "NSR", "SL"), ("SN", "SR", "NSL", "NL"), ("WE", "WR", "WER", "EL"), ("EW", "ER", "WEL", "WL")]

/-- The lanes with curves, intersection.py:85-100: the name, the segment before, the key of the curve (`segs.get(s + e + …) or segs[e + s + …]`)
and whether it is an outer one, the segment after. -/
def curves : List (String × String × (String × Bool) × String) :=
  [("NW", "NR", ("NW", false), "WL"), ("NE", "NR", ("NE", true), "EL"), ("WN", "WR", ("NW", true), "NL"), ("EN", "ER", ("NE", false), "NL"),
   ("SW", "SR", ("SW", true), "WL"), ("SE", "SR", ("SE", false), "EL"), ("WS", "WR", ("SW", false), "SL"), ("ES", "ER", ("SE", true), "SL")]

/-- A constructor `Lane(…)`: it stores the longitudinal start into its segments, verse/map/lane.py:18-22. Segments are shared between
lanes, so they are kept by name: `len` is their length. -/
def storeStarts {K : Type} [Add K] [Zero K] (len : String → K) : Dict String K → List String → K → Dict String K
  | d, [], _ => d
  | d, x :: xs, acc => storeStarts len (Dict.set d x acc) xs (acc + len x)

/-- The names of the segments of all lanes with number 0 in the order in which the lanes are constructed, intersection.py:78-100. -/
def laneSegments : List (List String) :=
  straights.map (fun x => [x.2.1, x.2.2.1, x.2.2.2]) ++
    curves.map (fun x => [x.2.1, x.2.2.1.1 ++ (if x.2.2.1.2 then "O" else "I"), x.2.2.2])

/-- The length of a segment with number 0. -/
noncomputable def segLength (w s l : ℝ) (x : String) : ℝ :=
  match straightEnds w s l 0 x with
  | some e => (Straight.new e.1 e.2).length
  | none => match curve w s 0 (String.ofList (x.toList.take 2)) (decide (x.toList.drop 2 = ['O'])) with
    | some c => c.length
    | none => 0

/-- The longitudinal starts after `Intersection.__init__`, for the lanes with number 0. -/
noncomputable def intersectionStarts (w s l : ℝ) : Dict String ℝ :=
  laneSegments.foldl (fun d xs => storeStarts (segLength w s l) d xs 0) []

end Verif.Maps
