import Verif.Model.LaneQueries
import Verif.Model.Lane3d

/-!
`to_config` and `from_config` of the lane classes, verse/map/lane_segment.py 211-229, 289-309, verse/map/lane_segment_3d.py 272-290, 470-491, with the
constructors they feed (lane_segment.py 160-194, 236-264; lane_segment_3d.py 177-211, 297-351, 495-525) and `to_serializable`, `get_class_path`,
`class_from_path` (verse/utils/utils.py 22-25, 37-44). Numbers are real numbers. A call with keyword arguments is modelled by the parameters' names and
defaults. An argument of a kind the constructor cannot use is an error (`Bad`): Python would fail there or at a later use.
-/

set_option autoImplicit false

namespace Verif.LaneConfig
open Verif.Lane3d (V3)

/-- What a configuration can hold: text, a list of numbers, an array of numbers, a number, a truth value, an integer, a list of line types or `None`. -/
inductive CV
  | str (s : String)
  | list (v : List ℝ)
  | array (v : List ℝ)
  | num (x : ℝ)
  | flag (b : Bool)
  | int (i : Int)
  | lines (l : Option (List Int))

/-- The five classes with a configuration: `StraightLane`, `CircularLane`, `StraightLane_3d`, `CircularLane_3d_v1`, `CircularLane_3d_v2`. -/
inductive Cls | straight | circular | straight3 | circular3 | ends3
deriving DecidableEq

/-- The attributes all the classes have: lane_segment.py 183-194, 250-264; lane_segment_3d.py 199-211, 312-351. -/
structure Common where
  id : String
  width : ℝ
  lines : List Int
  forbidden : Bool
  limit : ℝ
  priority : Int
  longStart : ℝ

/-- The other attributes. -/
inductive Shape
  | straight (start fin dir : ℝ × ℝ) (length heading : ℝ)
  | circular (center : ℝ × ℝ) (radius startPhase endPhase : ℝ) (clockwise : Bool) (length : ℝ)
  | straight3 (s : Lane3d.Straight) (fin : V3)
  | circular3 (c : Lane3d.Circular)

/-- A lane: its class and its attributes. -/
structure Obj where
  cls : Cls
  common : Common
  shape : Shape

/-! ### Keyword arguments -/

/-- The parameters common to all constructors, with their defaults: lane_segment.py 165-169, 244-248; lane_segment_3d.py 182-186, 306-310. `DEFAULT_WIDTH` is 4. -/
def tail : List (String × Option CV) :=
  [("width", some (.num 4)), ("line_types", some (.lines none)), ("forbidden", some (.flag false)), ("speed_limit", some (.num 20)), ("priority", some (.int 0))]

/-- The parameters of `__init__`: lane_segment.py 160-170, 236-249; lane_segment_3d.py 177-187, 297-311, 495-509. -/
def params : Cls → List (String × Option CV)
  | .straight | .straight3 => [("id", none), ("start", none), ("end", none)] ++ tail
  | .circular => [("id", none), ("center", none), ("radius", none), ("start_phase", none), ("end_phase", none), ("clockwise", some (.flag true))] ++ tail
  | .circular3 => [("id", none), ("center", none), ("radius", none), ("norm_vec", none), ("start_phase", none), ("end_phase", none), ("right_rotate", some (.flag true))] ++ tail
  | .ends3 => [("id", none), ("start", none), ("end", none), ("norm_vec", none), ("delta_phase", none), ("right_rotate", some (.flag true))] ++ tail

/-- The values the parameters get in `cls(**config)`: `TypeError` for a keyword that is no parameter and for a parameter with neither a value nor a default. -/
def bindKw (ps : List (String × Option CV)) (kw : Dict String CV) : Except String (Dict String CV) :=
  if kw.all (fun e => ps.any fun p => decide (p.1 = e.1)) then
    ps.mapM fun p => match Dict.get? kw p.1 with
      | some v => .ok (p.1, v)
      | none => match p.2 with
        | some v => .ok (p.1, v)
        | none => .error "TypeError"
  else .error "TypeError"

/-! ### Reading an argument -/

def getV (d : Dict String CV) (k : String) : Except String (List ℝ) := match Dict.get? d k with
  | some (.list v) => .ok v
  | some (.array v) => .ok v
  | _ => .error "Bad"
def get2 (d : Dict String CV) (k : String) : Except String (ℝ × ℝ) := (getV d k).bind fun
  | [x, y] => .ok (x, y)
  | _ => .error "Bad"
def get3 (d : Dict String CV) (k : String) : Except String V3 := (getV d k).bind fun
  | [x, y, z] => .ok ⟨x, y, z⟩
  | _ => .error "Bad"
def getN (d : Dict String CV) (k : String) : Except String ℝ := match Dict.get? d k with
  | some (.num x) => .ok x
  | _ => .error "Bad"
def getB (d : Dict String CV) (k : String) : Except String Bool := match Dict.get? d k with
  | some (.flag x) => .ok x
  | _ => .error "Bad"
def getI (d : Dict String CV) (k : String) : Except String Int := match Dict.get? d k with
  | some (.int x) => .ok x
  | _ => .error "Bad"
def getS (d : Dict String CV) (k : String) : Except String String := match Dict.get? d k with
  | some (.str x) => .ok x
  | _ => .error "Bad"
/-- `line_types or [STRIPED, STRIPED]`: lane_segment.py 187, 258. -/
def getL (d : Dict String CV) (k : String) : Except String (List Int) := match Dict.get? d k with
  | some (.lines (some (x :: l))) => .ok (x :: l)
  | some (.lines _) => .ok [1, 1]
  | _ => .error "Bad"

/-! ### Constructors -/

/-- The common attributes: lane_segment.py 183-194. -/
def initCommon (d : Dict String CV) : Except String Common :=
  (getS d "id").bind fun id => (getN d "width").bind fun w => (getL d "line_types").bind fun ls => (getB d "forbidden").bind fun f =>
    (getN d "speed_limit").bind fun sp => (getI d "priority").bind fun pr => .ok ⟨id, w, ls, f, sp, pr, 0⟩

/-- `StraightLane.__init__`, lane_segment.py 183-194. -/
noncomputable def mkStraight (start fin : ℝ × ℝ) : Shape :=
  .straight start fin (Lane.Straight.new start fin).dir (Lane.Straight.new start fin).length (Lane.arctan2 (fin.2 - start.2) (fin.1 - start.1))

/-- `CircularLane.__init__`, lane_segment.py 250-264. -/
noncomputable def mkCircular (center : ℝ × ℝ) (radius startPhase endPhase : ℝ) (clockwise : Bool) : Shape :=
  .circular center radius startPhase endPhase clockwise (radius * (endPhase - startPhase) * (if clockwise then -1 else 1))

/-- The other attributes, by class; `rnd` is Python's `round`, which `get_theta_by_coor` uses. -/
noncomputable def initShape (rnd : Nat → ℝ → ℝ) (c : Cls) (d : Dict String CV) : Except String Shape := match c with
  | .straight => (get2 d "start").bind fun s => (get2 d "end").bind fun e => .ok (mkStraight s e)
  | .circular => (get2 d "center").bind fun m => (getN d "radius").bind fun r => (getN d "start_phase").bind fun s => (getN d "end_phase").bind fun e =>
      (getB d "clockwise").bind fun cw => .ok (mkCircular m r s e cw)
  | .straight3 => (get3 d "start").bind fun s => (get3 d "end").bind fun e => .ok (.straight3 (Lane3d.Straight.new s e) e)
  | .circular3 => (get3 d "center").bind fun m => (getN d "radius").bind fun r => (get3 d "norm_vec").bind fun n => (getN d "start_phase").bind fun s =>
      (getN d "end_phase").bind fun e => (getB d "right_rotate").bind fun rr => match Lane3d.Circular.new m r n s e rr with
        | some c => .ok (.circular3 c)
        | none => .error "ValueError"
  | .ends3 => (get3 d "start").bind fun s => (get3 d "end").bind fun e => (get3 d "norm_vec").bind fun n => (getN d "delta_phase").bind fun p =>
      (getB d "right_rotate").bind fun rr => match Lane3d.Circular.fromEnds rnd s e n p rr with
        | some c => .ok (.circular3 c)
        | none => .error "Bad"

/-- `cls(**kw)`. -/
noncomputable def construct (rnd : Nat → ℝ → ℝ) (c : Cls) (kw : Dict String CV) : Except String Obj :=
  (bindKw (params c) kw).bind fun d => (initCommon d).bind fun m => (initShape rnd c d).bind fun s => .ok ⟨c, m, s⟩

/-! ### Configurations -/

/-- `to_serializable`, utils.py 22-25. -/
def toSerializable : CV → CV
  | .array v => .list v
  | v => v

/-- `np.array(v)`. -/
def npArray : CV → CV
  | .list v => .array v
  | v => v

/-- The entries all configurations end with: lane_segment.py 223-227, 303-307. -/
def tailConfig (m : Common) : Dict String CV :=
  [("width", .num m.width), ("line_types", .lines (some m.lines)), ("forbidden", .flag m.forbidden), ("speed_limit", .num m.limit), ("priority", .int m.priority)]

/-- `to_config()["config"]`: lane_segment.py 220-228, 297-308; lane_segment_3d.py 281-289, 478-490 (`CircularLane_3d_v2` inherits the last). -/
def toConfig (l : Obj) : Dict String CV := match l.shape with
  | .straight s e _ _ _ => [("start", toSerializable (.array [s.1, s.2])), ("end", toSerializable (.array [e.1, e.2]))] ++ tailConfig l.common
  | .circular m r s e cw _ =>
      [("center", toSerializable (.array [m.1, m.2])), ("radius", .num r), ("start_phase", .num s), ("end_phase", .num e), ("clockwise", .flag cw)] ++ tailConfig l.common
  | .straight3 s e =>
      [("start", toSerializable (.array [s.start.x, s.start.y, s.start.z])), ("end", toSerializable (.array [e.x, e.y, e.z]))] ++ tailConfig l.common
  | .circular3 c =>
      [("center", toSerializable (.array [c.center.x, c.center.y, c.center.z])), ("radius", .num c.radius), ("start_phase", .num c.startPhase),
        ("end_phase", .num c.endPhase), ("right_rotate", .flag c.right)] ++ tailConfig l.common

/-- The entries `from_config` turns into arrays: lane_segment.py 213-214, 291; lane_segment_3d.py 274-275, 472. -/
def arrays : Cls → List String
  | .straight | .straight3 => ["start", "end"]
  | .circular | .circular3 | .ends3 => ["center"]

/-- `config[k] = np.array(config[k])`. -/
def convert (config : Dict String CV) (k : String) : Except String (Dict String CV) := match Dict.get? config k with
  | some v => .ok (Dict.set config k (npArray v))
  | none => .error "KeyError"

/-- `from_config`: lane_segment.py 212-215, 290-292; lane_segment_3d.py 273-276, 471-473. The result is the lane and the dictionary passed, which is changed. -/
noncomputable def fromConfig (rnd : Nat → ℝ → ℝ) (c : Cls) (config : Dict String CV) : Except String (Obj × Dict String CV) :=
  ((arrays c).foldlM convert config).bind fun config => (construct rnd c config).map fun l => (l, config)

/-! ### Paths of classes -/

/-- `get_class_path`, utils.py 37-38: `__module__ + "." + __qualname__`. -/
def classPath (module qualname : List Char) : List Char := module ++ '.' :: qualname

/-- `path.rsplit(".", 1)` unpacked into two names, utils.py 42: `none` for the `ValueError` without a dot. -/
def rsplitDot : List Char → Option (List Char × List Char)
  | [] => none
  | c :: s => match rsplitDot s with
    | some (a, b) => some (c :: a, b)
    | none => if c = '.' then some ([], s) else none

/-- `class_from_path`, utils.py 41-44; `module` is `importlib.import_module` with the attributes of the result. -/
def classFromPath {α : Type} (module : List Char → Option (List Char → Option α)) (path : List Char) : Except String α := match rsplitDot path with
  | none => .error "ValueError"
  | some (m, n) => match module m with
    | none => .error "ModuleNotFoundError"
    | some attr => match attr n with
      | none => .error "AttributeError"
      | some c => .ok c

/-! ### What a lane answers -/

/-- The methods of a lane of the plane, as `LaneQ` uses them: lane_segment.py 196-209, 266-287. -/
noncomputable def Obj.view (l : Obj) : Option LaneQ.View := match l.shape with
  | .straight s _ d n hd => some ⟨(⟨s, d, n, l.common.longStart⟩ : Lane.Straight ℝ).coords, n, fun _ => l.common.width, fun _ => hd, l.common.forbidden⟩
  | .circular m r s e cw n =>
      let c : Lane.Circular := ⟨m, r, s, e, cw, l.common.longStart⟩
      some ⟨c.coords, n, fun _ => l.common.width, c.headingAt, l.common.forbidden⟩
  | _ => none

end Verif.LaneConfig
