import Verif.Model.Sensor

/-!
The sensors in `verse/sensor/example_sensor`: `ThermoSensor`, `CraftSensor`, `QuadrotorSensor` (their modules differ only in the
names of the variables), `SingleSensor` and, in simulations, `CraftStarSensor`.

Simplification: as in `Verif.Model.Sensor`, the values of the continuous variables are computed once per agent.
-/

set_option autoImplicit false

namespace Verif.Sns

variable {C D : Type}

/-- The names in thermo_sensor.py 18-19. -/
def thermoDef : Def := ⟨["temp", "total_time", "cycle_time"], ["thermo_mode"], []⟩
/-- The names in craft_sensor.py 18-19. -/
def craftDef : Def := ⟨["xp", "yp", "xd", "yd", "total_time", "cycle_time"], ["craft_mode"], []⟩
/-- The names in quadrotor_sensor.py 18-19. -/
def quadrotorDef : Def := ⟨["x", "y", "z", "vx", "vy", "vz", "waypoint_index", "done_flag"], ["craft_mode", "lane_mode"], []⟩

/-- `assert len(transp) == n` in `set_states_3d_ball` and `add_states_3d_ball` (craft_sensor.py 22-27, 36-41); in simulations
(`sim`) there is no test (16-19, 30-33). `transp` has the first `n` columns. -/
def fixedCheck (df : Def) (sim : Bool) (v : AgentState C D) : Except String Unit :=
  if sim then .ok () else if (v.cont.take df.cont.length).length = df.cont.length then .ok () else .error "AssertionError"

/-- `set_states_2d_ball`, `set_states_3d_ball`, craft_sensor.py 16-27. -/
def fixedSet (df : Def) (sim : Bool) (st : Dict String (Val C) × Dict String (Val D)) (v : AgentState C D) : Except String (Dict String (Val C) × Dict String (Val D)) :=
  (fixedCheck df sim v).map fun _ => (sets st.1 "ego" df.cont (v.cont.take df.cont.length), sets st.2 "ego" df.disc v.mode)

/-- `add_states_2d_ball`, `add_states_3d_ball`, craft_sensor.py 30-41. -/
def fixedAdd (df : Def) (sim : Bool) (st : Dict String (Val C) × Dict String (Val D)) (v : AgentState C D) : Except String (Dict String (Val C) × Dict String (Val D)) :=
  (fixedCheck df sim v).bind fun _ => (adds st.1 "others" df.cont (v.cont.take df.cont.length)).bind fun c => (adds st.2 "others" df.disc v.mode).map fun d => (c, d)

/-- One agent, craft_sensor.py 51-62. -/
def fixedStep (df : Def) (sim : Bool) (ego : String) (st : Dict String (Val C) × Dict String (Val D)) (e : String × AgentState C D) : Except String (Dict String (Val C) × Dict String (Val D)) :=
  if e.1 = ego then fixedSet df sim st e.2 else fixedAdd df sim st e.2

/-- `CraftSensor.sense`, craft_sensor.py 45-63 (and the same of the other two classes). -/
def fixedSense (df : Def) (sim : Bool) (ego : String) (sd : Dict String (AgentState C D)) : Except String ((Dict String (Val C) × Dict String (Val D)) × Int) :=
  if sd = [] then .error "IndexError" else (sd.foldlM (fixedStep df sim ego) ([], [])).map fun st => (st, (sd.length : Int) - 1)

/-- `SingleSensor.sense` in verify, single_sensor.py 89-109: the ego agent. A missing type raises. -/
def singleEgo (args : List Arg) (defs : Dict String Def) (st : Dict String (Val C) × Dict String (Val D)) (v : AgentState C D) : Except String (Dict String (Val C) × Dict String (Val D)) :=
  match egoType args with
  | none => .error "ValueError"
  | some t => match Dict.get? defs t with
    | none => .error "KeyError"
    | some df => .ok (setStates st "ego" v df)

/-- `SingleSensor.sense` in verify, single_sensor.py 110-128: another agent; its values are set, not added. -/
def singleOther (args : List Arg) (defs : Dict String Def) (st : Dict String (Val C) × Dict String (Val D)) (v : AgentState C D) : Except String (Dict String (Val C) × Dict String (Val D)) :=
  match otherArg args with
  | none => .error "ValueError"
  | some a => match a.typ with
    | none => .error "ValueError"
    | some t => match Dict.get? defs t with
      | none => .error "KeyError"
      | some df => .ok (setStates st a.name v df)

/-- `SingleSensor.sense` in verify: one agent. -/
def singleStep (ego : String) (args : List Arg) (defs : Dict String Def) (st : Dict String (Val C) × Dict String (Val D)) (e : String × AgentState C D) : Except String (Dict String (Val C) × Dict String (Val D)) :=
  if e.1 = ego then singleEgo args defs st e.2 else singleOther args defs st e.2

/-- `SingleSensor.sense`, single_sensor.py 53-130. In simulations it is `BaseSensor.sense`. -/
def singleSense (sim : Bool) (ego : String) (args : List Arg) (defs : Dict String Def) (sd : Dict String (AgentState C D)) : Except String ((Dict String (Val C) × Dict String (Val D)) × Int) :=
  if sim then sense ego args defs sd
  else if sd = [] then .error "IndexError" else (sd.foldlM (singleStep ego args defs) ([], [])).map fun st => (st, (sd.length : Int) - 1)

/-- `set_states_2d_ball` of craft_star_sensor.py 37-40: each name is given `state[1]`. -/
def starSet (df : Def) (st : Dict String (Val C) × Dict String (Val D)) (v : AgentState C D) : Except String (Dict String (Val C) × Dict String (Val D)) :=
  match v.cont with
  | [] => .error "IndexError"
  | c :: _ => .ok (sets st.1 "ego" df.cont (df.cont.map fun _ => c), sets st.2 "ego" df.disc v.mode)

/-- `add_states_2d_ball` of craft_star_sensor.py 51-54. -/
def starAdd (df : Def) (st : Dict String (Val C) × Dict String (Val D)) (v : AgentState C D) : Except String (Dict String (Val C) × Dict String (Val D)) :=
  match v.cont with
  | [] => .error "IndexError"
  | c :: _ => (adds st.1 "others" df.cont (df.cont.map fun _ => c)).bind fun c' => (adds st.2 "others" df.disc v.mode).map fun d => (c', d)

/-- `CraftStarSensor.sense` in simulations, craft_star_sensor.py 66-77 and 84. -/
def starSense (ego : String) (sd : Dict String (AgentState C D)) : Except String ((Dict String (Val C) × Dict String (Val D)) × Int) :=
  if sd = [] then .error "IndexError"
  else (sd.foldlM (fun st e => if e.1 = ego then starSet craftDef st e.2 else starAdd craftDef st e.2) ([], [])).map fun st => (st, (sd.length : Int) - 1)

end Verif.Sns
