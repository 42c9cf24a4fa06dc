import Verif.Model.Verifier
import Verif.Model.Guard
import Verif.Model.Sensor

/-!
The analysis step of `Model/Verifier.lean` with the guards of `Model/Guard.lean` and the sensor of `Model/Sensor.lean` in place of its
parameters: `verse/analysis/verifier.py`, 1015-1180, with the functions that it calls.

Simplifications
* A reset knows the continuous and discrete values that the sensor returns. In Python its dictionaries also have the variables that
  unrolling and lane queries have added, with names such as `others_0.x` and `tmp_variable7`, which do not occur in reset expressions.
* Values of modes are the values of `Model/Guard.lean`. A mode that the map computes is given by a function of the discrete values.
-/

set_option autoImplicit false

namespace Verif.Asm

open Verif.Grd

/-- The discrete values that a reset reads. -/
abbrev Reads (K : Type) := Key → Option (Val K)

/-- `ModePath` (parser.py:298-310): `if guard: output.var = val`. -/
structure Rule (K : Type) where
  var   : String
  guard : Fml K
  val   : Rst.Val (Val K) (Reads K)

/-- `Assert` (parser.py:190-193): precondition and condition. -/
structure Claim (K : Type) where
  label : String
  pre   : Fml K
  cond  : Fml K

/-- `ControllerIR` (parser.py:313-321): arguments with their types, state definitions, rules, asserts, and the variables of the agent. -/
structure Controller (K : Type) where
  args     : List Sns.Arg
  defs     : Dict String Sns.Def
  rules    : List (Rule K)
  claims   : List (Claim K)
  cont     : List String
  disc     : List String
  discType : List String

/-- What guard evaluation depends on besides the state: functions, map, solver. -/
structure Tools (K Seg : Type) where
  fn     : Funs K
  road   : Road K Seg
  solver : Solver K

/-- The key `n.a` of the dictionaries of the sensor, as name and attribute. -/
def splitKey (s : String) : Option (String × String) :=
  match s.toList.dropWhile (fun c => decide (c ≠ '.')) with
  | [] => none
  | _ :: a => some (String.ofList (s.toList.takeWhile (fun c => decide (c ≠ '.'))), String.ofList a)

/-- The entries of a dictionary of the sensor that are single values. -/
def ones {V : Type} (d : Dict String (Sns.Val V)) : Dict Key V :=
  d.filterMap fun kv => match Dict.get? d kv.1 with
    | some (.one v) => (splitKey kv.1).map fun na => (.attr na.1 na.2, v)
    | _ => none

/-- The entries of a dictionary of the sensor that are lists. -/
def manys {V : Type} (d : Dict String (Sns.Val V)) : Dict (String × String) (List V) :=
  d.filterMap fun kv => match Dict.get? d kv.1 with
    | some (.many l) => (splitKey kv.1).map fun na => (na, l)
    | _ => none

section
variable {K Seg : Type}

/-- `state_dict` as the sensor reads it: the range of every continuous variable (`Sns.boxValues`). -/
def agentStates (sd : Ver.StateDict K (Val K)) : Dict String (Sns.AgentState (Iv K) (Val K)) :=
  sd.map fun x => (x.1, ⟨x.2.1.box.1.zip x.2.1.box.2, x.2.2.1, x.2.2.2⟩)

/-- What the sensor returns for an agent (base_sensor.py:54-135). -/
abbrev Sense (K : Type) := Except String (Sensed K (Iv K))

/-- `sensor.sense(agent, state_dict, track_map, False)`, verifier.py:1031 and 1106. -/
def sensed (c : Controller K) (a : String) (sd : Ver.StateDict K (Val K)) : Sense K :=
  (Sns.sense a c.args c.defs (agentStates sd)).map fun r => ⟨ones r.1.1, manys r.1.1, ones r.1.2, manys r.1.2, [("others", r.2.toNat)]⟩

/-- The text of a variable. -/
def keyText : Key → Rst.Text
  | .attr n a => (n ++ "." ++ a).toList
  | .elem l i a => (l ++ "_" ++ toString i ++ "." ++ a).toList
  | .name n => n.toList
  | .tmp i => ("tmp_variable" ++ toString i).toList

/-- A prepared guard: the unrolled guard, the discrete values, and what is left of the guard. -/
structure Ready (K : Type) where
  unrolled : Fml K
  disc     : Dict Key (Val K)
  rest     : List (Fml K)

variable [Zero K] [LinearOrder K]

/-- Lines 1033-1046: `parse_any_all_new` and `evaluate_guard_disc` with what is sensed for the first rectangle. -/
def prepare (T : Tools K Seg) (f : Fml K) (s : Sense K) : Except String (Option (Ready K)) :=
  s.bind fun s₀ => (unrollF s₀.len f).bind fun u => (addElems s₀ u).bind fun s₁ => (discList T.fn s₁.cont s₁.disc [u]).map fun r =>
    if r.1 then some ⟨u, s₁.disc, r.2⟩ else none

/-- Lines 1155-1168: `evaluate_guard_hybrid` and `evaluate_guard_cont`. -/
def evaluate (T : Tools K Seg) (g : Ready K) (s : Sense K) : Except String (Bool × Bool) :=
  s.bind fun s => check T.road T.solver g.disc s g.unrolled g.rest

/-- A rule as the analysis uses it, lines 1017-1046 and 1150-1180. -/
def pathOf (T : Tools K Seg) (r : Rule K) : Ver.Path (Sense K) (Ready K) K (Val K) (Reads K) :=
  { var := r.var, prep := prepare T r.guard, check := evaluate T,
    cont := fun _ s => s.map fun s => s.cont.map fun kv => (keyText kv.1, kv.2),
    disc := fun s k => match s with
      | .ok s => Dict.get? s.disc k
      | .error _ => none,
    val := r.val }

/-- `eval_expr`, lines 1111-1124. -/
def evalExpr (T : Tools K Seg) (f : Fml K) (s : Sense K) : Except String (Bool × Bool) := s.bind fun s => evalGuard T.fn T.road T.solver s s f

/-- An assert as the analysis uses it, lines 1108-1131. -/
def assertionOf (T : Tools K Seg) (x : Claim K) : Ver.Assertion (Sense K) := { label := x.label, pre := evalExpr T x.pre, cond := evalExpr T x.cond }

/-- A controller as the analysis uses it. -/
def logicOf (T : Tools K Seg) (c : Controller K) : Ver.Logic (Sense K) (Ready K) K (Val K) (Reads K) :=
  { nargs := c.args.length, asserts := c.claims.map (assertionOf T), paths := c.rules.map (pathOf T), cont := c.cont, disc := c.disc, discType := c.discType }

/-- A scenario: controllers, modes, initial rectangles and static values of the agents. -/
structure Scenario (K : Type) where
  agents : List (String × Controller K)
  mode   : Dict String (List (Val K))
  init   : Dict String (List (Rect.Box K))
  static : Dict String (List (Val K))

/-- The scenario as the analysis uses it. -/
def bodyOf (T : Tools K Seg) (sc : Scenario K) : Ver.Body (Sense K) (Ready K) K (Val K) (Reads K) :=
  { agents := sc.agents.map (fun a => (a.1, logicOf T a.2)), mode := sc.mode, init := sc.init, static := sc.static }

/-- Line 1031: every agent senses with its own controller. -/
def senseIn (sc : Scenario K) (a : String) (sd : Ver.StateDict K (Val K)) : Sense K :=
  match Dict.get? sc.agents a with
  | some c => sensed c a sd
  | none => .error "KeyError"

/-- The parameters of the analysis, with the sensor in place. -/
def worldOf (sc : Scenario K) (bloat : String → List (Val K) → Rect.Box K → ℚ → Ver.Tube K) (segLen : Nat)
    (mapH : Option (Val K) → List (Val K) → List (Val K) → Option (Val K)) (round10 : ℚ → ℚ) (sh : K → Rst.Text) (rd : Rst.Text → Option K) :
    Ver.World (Sense K) K (Val K) :=
  { sense := senseIn sc, bloat := bloat, segLen := segLen, mapH := mapH, unsafeContinue := false, round10 := round10, sh := sh, rd := rd }

end

end Verif.Asm
