import Verif.Model.Sensor

/-!
`pack_env`, verse/analysis/simulator.py, 43-75: the environment in which `simulate` evaluates guards, resets and asserts, made from what the sensor shows.

Simplifications: a `SimpleNamespace` is the dictionary of its attributes; the map is one fixed object.
-/

set_option autoImplicit false

namespace Verif.Sns

variable {C D X : Type}

/-- `k.split(".")`, line 50. -/
def splitDot : List Char → List (List Char)
  | [] => [[]]
  | c :: cs => if c = '.' then [] :: splitDot cs else
    match splitDot cs with
    | [] => [[c]]
    | p :: ps => (c :: p) :: ps

/-- Values of the names in the environment: an object with attributes, a list of objects, the map. -/
inductive EnvVal (X : Type) where
  | obj (fields : Dict String (Val X))
  | list (objs : List (Dict String X))
  | map
  deriving DecidableEq

/-- Lines 50-51: `packed[k1][k2] = v`; `packed` is a `defaultdict(dict)`. -/
def packOne (packed : Dict String (Dict String (Val X))) (e : String × Val X) : Except String (Dict String (Dict String (Val X))) :=
  match splitDot e.1.toList with
  | [k1, k2] => .ok (Dict.set packed (String.ofList k1) (Dict.set ((Dict.get? packed (String.ofList k1)).getD []) (String.ofList k2) e.2))
  | _ => .error "ValueError"

/-- Values of the two dictionaries, as values of one type. -/
def Val.map {Y : Type} (f : X → Y) : Val X → Val Y
  | .one v => .one (f v)
  | .many l => .many (l.map f)

/-- Lines 48-51, both dictionaries. -/
def packAll (cont : Dict String (Val C)) (disc : Dict String (Val D)) : Except String (Dict String (Dict String (Val (C ⊕ D)))) :=
  (cont.map (fun (e : String × Val C) => (e.1, e.2.map Sum.inl)) ++ disc.map (fun (e : String × Val D) => (e.1, e.2.map Sum.inr))).foldlM packOne []

/-- `zip(*ls)`, line 66: as many rows as the shortest list has elements. -/
def zipStar (ls : List (List X)) : List (List X) :=
  match ls with
  | [] => []
  | l :: ls => (List.range (ls.foldl (fun n m => min n m.length) l.length)).map fun i => (l :: ls).filterMap (fun m => m[i]?)

/-- A value of a list argument must be a list, to be unzipped in line 66. -/
def asList : Val X → Except String (List X)
  | .many l => .ok l
  | .one _ => .error "TypeError"

/-- Lines 59 and 63-68: the objects of a list argument. (The keys of `packed[other]` are different, so that the dictionary of line 65 has the pairs of `zip`.) -/
def objects (m : Dict String (Val X)) : Except String (List (Dict String X)) :=
  (m.mapM (fun (e : String × Val X) => asList e.2)).map fun vals => (zipStar vals).map fun row => (m.map Prod.fst).zip row

/-- Lines 53-71: one argument. The flag is `arg.is_list`. -/
def packArg (packed : Dict String (Dict String (Val X))) (env : Dict String (EnvVal X)) (a : Arg × Bool) : Except String (Dict String (EnvVal X)) :=
  if "map".toList <:+: a.1.name.toList then .ok (Dict.set env a.1.name .map)
  else if a.1.name ≠ "ego" then
    match Dict.get? packed a.1.name with
    | some m => if a.2 then (objects m).map fun os => Dict.set env a.1.name (.list os) else .ok (Dict.set env a.1.name (.obj m))
    | none => if a.2 then .ok (Dict.set env a.1.name (.list [])) else .ok env
  else .ok env

/-- `pack_env`, 43-75. -/
def packEnv (args : List (Arg × Bool)) (cont : Dict String (Val C)) (disc : Dict String (Val D)) : Except String (Dict String (EnvVal (C ⊕ D))) :=
  (packAll cont disc).bind fun packed => args.foldlM (packArg packed) [("ego", .obj ((Dict.get? packed "ego").getD []))]

/-- Lines 83-84 with the sensor: what the controller of agent `ego` is given (`Simulator.get_transition_simulate` calls `sense` and `check_sim_transitions`). -/
def view (ego : String) (args : List (Arg × Bool)) (defs : Dict String Def) (sd : Dict String (AgentState C D)) : Except String (Dict String (EnvVal (C ⊕ D))) :=
  (sense ego (args.map Prod.fst) defs sd).bind fun r => packEnv args r.1.1 r.1.2

end Verif.Sns
