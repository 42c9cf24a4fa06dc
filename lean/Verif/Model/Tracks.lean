import Verif.Model.Basic

/-!
`verse/scenario/scenario.py`: `set_map` (84-90), `add_agent` (92-110) and `_update_agent_lane_mode` (113-119), `Benchmark.swap_dl` (570-571): the lanes that the
decision logic of an agent knows as values of its `TrackMode`.

Simplifications: of a map, only the names of its lanes (the keys of `lane_dict`) are kept. Of an agent, only its id and the values of `TrackMode` in its
decision logic (`none`: it has no `TrackMode`) are kept; different calls of `add_agent` get different agents.
-/

set_option autoImplicit false

namespace Verif.Tracks

/-- The part of a scenario that is modelled, `agent_dict` and `map` (55-63; the map starts without lanes). -/
structure State where
  agents : Dict String (Option (List String)) := []
  lanes : List String := []
deriving Repr, DecidableEq

/-- One pass of the loop, 114-119. -/
def addLane (modes : Option (List String)) (lane : String) : Option (List String) :=
  modes.map fun ms => if ms.contains lane then ms else ms ++ [lane]

/-- `_update_agent_lane_mode`, 113-119. -/
def updateLanes (modes : Option (List String)) (lanes : List String) : Option (List String) := lanes.foldl addLane modes

/-- `set_map`, 84-90. -/
def setMap (s : State) (lanes : List String) : State :=
  { agents := s.agents.map fun p => (p.1, updateLanes p.2 lanes), lanes := lanes }

/-- `add_agent`, 92-97. -/
def addAgent (s : State) (id : String) (modes : Option (List String)) : State :=
  { s with agents := Dict.set s.agents id (updateLanes modes s.lanes) }

/-- `swap_dl`, 570-571. -/
def swapLogic (s : State) (id : String) (modes : Option (List String)) : Except String State :=
  match Dict.get? s.agents id with
  | none => .error "KeyError"
  | some _ => .ok { s with agents := Dict.set s.agents id modes }

/-- A call of one of the functions. -/
inductive Call where
  | setMap (lanes : List String)
  | addAgent (id : String) (modes : Option (List String))
  | swapLogic (id : String) (modes : Option (List String))
deriving Repr, DecidableEq

def call (s : State) : Call → Except String State
  | .setMap lanes => .ok (setMap s lanes)
  | .addAgent id modes => .ok (addAgent s id modes)
  | .swapLogic id modes => swapLogic s id modes

/-- A sequence of calls on a new scenario. -/
def run (cs : List Call) : Except String State := cs.foldlM call {}

end Verif.Tracks
