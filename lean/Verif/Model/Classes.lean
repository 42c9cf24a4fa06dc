import Verif.Model.Sensor

/-!
`verse/parser/parser.py`, 50-66, 725-756, 797-847: which variables and modes a file of decision logic defines by its classes.

Simplifications
* of a statement only what these lines look at is kept: names that are assigned to, annotations that are names, the names of classes, both branches of `if`; values,
  decorators, bases of classes and the contents of functions are not looked at by the code;
* `env.scopes`, which the statements also change, is modelled in `Parser`; here are `env.state_defs` and `env.mode_defs`;
* statements other than classes, `if` and loops neither change these two dictionaries nor end the loop of lines 750-752; those that raise are `bad`.
-/

set_option autoImplicit false

namespace Verif.Classes

/-- What is assigned to: a name, or something else (an attribute, a subscript, a tuple). -/
inductive Target where
  | name (s : String)
  | other
  deriving DecidableEq

/-- A statement in the body of a class: `ast.Assign` (its first target, and whether there are more), `ast.AnnAssign` (target, annotation if it is a name, whether
a value is given), another statement. -/
inductive Member where
  | assign (t : Target) (more : Bool)
  | ann (t : Target) (typ : Option String) (value : Bool)
  | other
  deriving DecidableEq

/-- `grab_names`, 799-814. -/
def grabNames : List Member → Except String (List String)
  | [] => .ok []
  | .assign t more :: l => if more then .error "NotImplementedError" else match t with
    | .name s => (grabNames l).map (s :: ·)
    | .other => .error "NotImplementedError"
  | .ann t _ _ :: l => match t with
    | .name s => (grabNames l).map (s :: ·)
    | .other => .error "NotImplementedError"
  | .other :: l => grabNames l

/-- `grab_annotates`, 816-826. -/
def grabAnnotates : List Member → Except String (List (Option String))
  | [] => .ok []
  | .assign _ _ :: l => (grabAnnotates l).map (none :: ·)
  | .ann _ typ _ :: l => match typ with
    | some s => (grabAnnotates l).map (some s :: ·)
    | none => .error "NotImplementedError"
  | .other :: l => grabAnnotates l

/-- `StateDef`, 55-66. -/
structure StateDef where
  cont : List String := []
  disc : List String := []
  discType : List (Option String) := []
  static : List String := []
  staticType : List (Option String) := []
  deriving DecidableEq

/-- `all_vars`, 65-66. -/
def StateDef.allVars (d : StateDef) : List String := d.cont ++ d.disc ++ d.static

/-- 836-844: the loop over the names, from index `i`. -/
def classify (annotates : List (Option String)) : Nat → List String → StateDef → Except String StateDef
  | _, [], d => .ok d
  | i, name :: names, d =>
    if "type" = name then match annotates[i]? with
      | some a => classify annotates (i + 1) names { d with static := d.static ++ [name], staticType := d.staticType ++ [a] }
      | none => .error "IndexError"
    else if ¬ "mode".toList <:+: name.toList then classify annotates (i + 1) names { d with cont := d.cont ++ [name] }
    else match annotates[i]? with
      | some a => classify annotates (i + 1) names { d with disc := d.disc ++ [name], discType := d.discType ++ [a] }
      | none => .error "IndexError"

/-- 832-844: a class whose name ends in `State`. -/
def stateDef (body : List Member) : Except String StateDef :=
  (grabNames body).bind fun names => (grabAnnotates body).bind fun annotates => classify annotates 0 names {}

/-- `env.state_defs` and `env.mode_defs`, 423-424. -/
structure Defs where
  states : Dict String StateDef := []
  modes : Dict String (List String) := []
  deriving DecidableEq

/-- 797-846. -/
def procClass (name : String) (body : List Member) (d : Defs) : Except String Defs :=
  if "Mode".toList <:+ name.toList then (grabNames body).map fun ms => { d with modes := Dict.set d.modes name ms }
  else if "State".toList <:+ name.toList then (stateDef body).map fun s => { d with states := Dict.set d.states name s }
  else .ok d

/-- A statement of a file. `main` is `if __name__ == "__main__"` in either order (725-740); `bad` raises (757-758, and others). -/
inductive Stmt where
  | cls (name : String) (bases : List String) (body : List Member)
  | main
  | cond (body orelse : List Stmt)
  | plain
  | bad

mutual
/-- `proc`, 748-846, with `true` for `START_OF_MAIN`. The branches of an `if` are processed with copies of the environment; `merge_if` (577-584) copies back variables
and asserts only. -/
def proc : Stmt → Defs → Except String (Defs × Bool)
  | .cls name _ body, d => (procClass name body d).map fun d => (d, false)
  | .main, d => .ok (d, true)
  | .cond body orelse, d => (procAll body d).bind fun _ => (procAll orelse d).map fun _ => (d, false)
  | .plain, d => .ok (d, false)
  | .bad, _ => .error "NotImplementedError"
/-- 763-767: the statements of a branch. -/
def procAll : List Stmt → Defs → Except String Defs
  | [], d => .ok d
  | s :: l, d => (proc s d).bind fun r => procAll l r.1
end

/-- 749-752: a file. -/
def procModule : List Stmt → Defs → Except String Defs
  | [], d => .ok d
  | s :: l, d => (proc s d).bind fun r => if r.2 then .ok r.1 else procModule l r.1

/-- `Env.parse`, 427-446. -/
def parse (file : List Stmt) : Except String Defs := procModule file {}

/-- 781-782: `cls.attr` where `cls` is the name of a class of modes is the constant `attr`. -/
def modeAttr (d : Defs) (cls attr : String) : Option String := if (Dict.get? d.modes cls).isSome then some attr else none

/-- The definition as the sensor reads it, verse/sensor/base_sensor.py 72-74. -/
def StateDef.toDef (s : StateDef) : Sns.Def := ⟨s.cont, s.disc, s.static⟩

end Verif.Classes
