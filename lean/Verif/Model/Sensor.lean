import Verif.Model.Basic
import Mathlib.Data.List.Infix
import Mathlib.Data.List.Basic

/-!
`verse/sensor/base_sensor.py` (5-135): what an agent's decision logic is given of the states of all agents.

Simplification: the values of the continuous variables are computed once per agent (`simValues` or `boxValues`).
-/

set_option autoImplicit false

namespace Verif.Sns

variable {C D V K : Type}

/-- Values in the dictionaries: a value, or a list with one value per agent. -/
inductive Val (V : Type) where
  | one (v : V)
  | many (l : List V)
  deriving DecidableEq

/-- `state[1:]` in `set_states_2d`, `add_states_2d`, 18-22 and 34-38. -/
def simValues (state : List K) : List K := state.drop 1

/-- `np.transpose(np.array(state)[:, 1:])` in `set_states_3d`, `add_states_3d`, 25-31 and 41-47. -/
def boxValues (rows : List (List K)) : List (List K) :=
  match rows.map (List.drop 1) with
  | [] => []
  | r :: rs => (List.range r.length).map fun j => (r :: rs).filterMap (fun row => row[j]?)

/-- The entry of an agent in `state_dict`: values of the continuous variables, modes, static parameters. -/
structure AgentState (C D : Type) where
  cont : List C
  mode : List D
  static : List D

/-- A state definition of the decision logic: names of the continuous, discrete and static variables. -/
structure Def where
  cont : List String
  disc : List String
  static : List String

/-- An argument of the decision logic: name and type. -/
structure Arg where
  name : String
  typ : Option String
  deriving DecidableEq

/-- `sets`, 5-6. -/
def sets (d : Dict String (Val V)) (thing : String) (attrs : List String) (vals : List V) : Dict String (Val V) :=
  (attrs.zip vals).foldl (fun d kv => Dict.set d (thing ++ "." ++ kv.1) (.one kv.2)) d

/-- One step of `adds`, 11-14. -/
def addOne (thing : String) (d : Dict String (Val V)) (kv : String × V) : Except String (Dict String (Val V)) :=
  match Dict.get? d (thing ++ "." ++ kv.1) with
  | none => .ok (Dict.set d (thing ++ "." ++ kv.1) (.many [kv.2]))
  | some (.many l) => .ok (Dict.set d (thing ++ "." ++ kv.1) (.many (l ++ [kv.2])))
  | some (.one _) => .error "AttributeError"

/-- `adds`, 9-14. -/
def adds (d : Dict String (Val V)) (thing : String) (attrs : List String) (vals : List V) : Except String (Dict String (Val V)) :=
  (attrs.zip vals).foldlM (addOne thing) d

/-- Lines 64-68: the type of the argument `ego`. -/
def egoType (args : List Arg) : Option String := (args.find? (fun a => decide (a.name = "ego"))).bind Arg.typ

/-- Lines 81-87: the first argument that is neither `ego` nor a map. -/
def otherArg (args : List Arg) : Option Arg := args.find? (fun a => decide (a.name ≠ "ego") && !decide ("map".toList <:+: a.name.toList))

/-- Lines 18-22 (and 25-31). -/
def setStates (st : Dict String (Val C) × Dict String (Val D)) (thing : String) (v : AgentState C D) (df : Def) : Dict String (Val C) × Dict String (Val D) :=
  (sets st.1 thing df.cont v.cont, sets (sets st.2 thing df.disc v.mode) thing df.static v.static)

/-- Lines 34-38 (and 41-47). -/
def addStates (st : Dict String (Val C) × Dict String (Val D)) (thing : String) (v : AgentState C D) (df : Def) :
    Except String (Dict String (Val C) × Dict String (Val D)) :=
  (adds st.1 thing df.cont v.cont).bind fun c => (adds st.2 thing df.disc v.mode).bind fun d => (adds d thing df.static v.static).map fun d' => (c, d')

/-- Lines 61-77: the ego agent. -/
def senseEgo (args : List Arg) (defs : Dict String Def) (st : Dict String (Val C) × Dict String (Val D)) (v : AgentState C D) :
    Except String (Dict String (Val C) × Dict String (Val D)) :=
  match egoType args with
  | none => .ok st
  | some t => match Dict.get? defs t with
    | none => .error "KeyError"
    | some df => .ok (setStates st "ego" v df)

/-- Lines 78-96: another agent. -/
def senseOther (args : List Arg) (defs : Dict String Def) (st : Dict String (Val C) × Dict String (Val D)) (v : AgentState C D) :
    Except String (Dict String (Val C) × Dict String (Val D)) :=
  match otherArg args with
  | none => .ok st
  | some a => match a.typ with
    | none => .ok st
    | some t => match Dict.get? defs t with
      | none => .error "KeyError"
      | some df => addStates st a.name v df

/-- One agent of `state_dict`, lines 60-96. -/
def senseStep (ego : String) (args : List Arg) (defs : Dict String Def) (st : Dict String (Val C) × Dict String (Val D)) (e : String × AgentState C D) :
    Except String (Dict String (Val C) × Dict String (Val D)) :=
  if e.1 = ego then senseEgo args defs st e.2 else senseOther args defs st e.2

/-- `BaseSensor.sense`, 54-135: the dictionaries, and the length given for `others`. -/
def sense (ego : String) (args : List Arg) (defs : Dict String Def) (sd : Dict String (AgentState C D)) :
    Except String ((Dict String (Val C) × Dict String (Val D)) × Int) :=
  if sd = [] then .error "IndexError" else (sd.foldlM (senseStep ego args defs) ([], [])).map fun st => (st, (sd.length : Int) - 1)

end Verif.Sns
