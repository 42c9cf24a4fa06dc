import Verif.Model.Guard
import Verif.Model.Star

/-!
Guards and star sets: the star set branches of `verse/automaton/guard.py`, and `verse/sensor/base_sensor_stars.py`.

A dictionary of continuous variables maps texts like `ego.x` to the star set of the whole agent, and texts like `others.x` to the list of the star
sets of all other agents. Which dimension of a star set belongs to which variable is found from texts, so that here texts are lists of characters.
-/

set_option autoImplicit false

namespace Verif.StarGrd

open Verif.Grd Verif.Stars

abbrev Text := List Char

/-- A value in the dictionary: a star set, or a list of star sets. -/
inductive Entry (K : Type) where
  | one (s : StarSet K)
  | many (ss : List (StarSet K))

/-- `n.a` -/
def dotted (n a : Text) : Text := n ++ '.' :: a

/-- `l_i`, guard.py:1268 -/
def elemText (l : Text) (i : Nat) : Text := l ++ '_' :: Nat.toDigits 10 i

/-- The text of a variable, guard.py:1268 and 485. -/
def keyText : Key → Text
  | .attr n a => dotted n.toList a.toList
  | .elem l i a => dotted (elemText l.toList i) a.toList
  | .name n => n.toList
  | .tmp i => "tmp_variable".toList ++ Nat.toDigits 10 i

/-- `cont_vars.replace(".", "_")`, guard.py:187: the name of the solver variable. -/
def under (t : Text) : Text := t.map (fun c => if c = '.' then '_' else c)

/-! ### The sensor -/

/-- `sets` with star sets, base_sensor_stars.py:5-7. -/
def setEgo {K : Type} (vars : List Text) (s : StarSet K) (d : Dict Text (Entry K)) : Dict Text (Entry K) :=
  vars.foldl (fun d v => Dict.set d (dotted "ego".toList v) (.one s)) d

/-- One step of the loop of `adds`, base_sensor_stars.py:24-28. A value that is not a list cannot occur: the name of the list is not `ego` (line 97). -/
def addOther {K : Type} (l : Text) (s : StarSet K) (d : Dict Text (Entry K)) (v : Text) : Dict Text (Entry K) :=
  match Dict.get? d (dotted l v) with
  | some (.many ss) => Dict.set d (dotted l v) (.many (ss ++ [s]))
  | some (.one t) => Dict.set d (dotted l v) (.one t)
  | none => Dict.set d (dotted l v) (.many [s])

/-- `BaseStarSensor.sense`, base_sensor_stars.py:74-158, continuous variables only: `agents` are the agents in the order of the dictionary of states,
with `true` for the agent itself; `vars` are its variables and `ovars` those of the elements of its list `l` of other agents. -/
def senseStars {K : Type} (vars : List Text) (l : Text) (ovars : List Text) (agents : List (Bool × StarSet K)) : Dict Text (Entry K) :=
  agents.foldl (fun d a => if a.1 then setEgo vars a.2 d else ovars.foldl (addOther l a.2) d) []

/-- The update for one unrolled variable, guard.py:1268-1290 and verse/analysis/verifier.py:1280-1284. -/
def addElemStar {K : Type} (d : Dict Text (Entry K)) : Key → Except String (Dict Text (Entry K))
  | .elem l i a =>
    match Dict.get? d (dotted l.toList a.toList) with
    | some (.many ss) => match ss[i]? with
      | some s => .ok (Dict.set d (keyText (.elem l i a)) (.one s))
      | none => .error "IndexError"
    | _ => .ok d
  | _ => .ok d

/-! ### The query -/

/-- Constraints over named solver variables: `c + Σ a * x = y`, and `Σ a * x ≤ b`. -/
inductive Con (K : Type) where
  | eq (c : K) (ts : List (K × Text)) (y : Text)
  | le (ts : List (K × Text)) (b : K)
deriving DecidableEq

/-- The solver: a formula, whose variables are named by `under`, and constraints. A parameter. -/
abbrev StarSolver (K : Type) := ZFml K → List (Con K) → Answer

variable {K : Type}

/-- `var.split(".")[0]`, guard.py:120. -/
def agentOf (t : Text) : Text := t.takeWhile (fun c => c ≠ '.')

/-- `var_string.split(".")[1]`, guard.py:143. -/
def attrOf (t : Text) : Except String Text :=
  match t.dropWhile (fun c => c ≠ '.') with
  | [] => .error "IndexError"
  | _ :: r => .ok (r.takeWhile (fun c => c ≠ '.'))

/-- The names in `varDict`, guard.py:186-189. Two variables with the same solver name count as two. -/
def varNames (cont : Dict Text (Entry K)) : List Text := cont.map (fun kv => under kv.1)

/-- The values of `symbols_map`, guard.py:103: the variables whose text occurs in the guard. Two variables with the same solver name count as two. -/
def symbols (cont : Dict Text (Entry K)) (z : ZFml K) : List Text :=
  (cont.map Prod.fst).filter (fun k => z.keys.any (fun k' => decide (k <:+: keyText k')))

/-- One step of guard.py:119-125. -/
def stateStep (cont : Dict Text (Entry K)) (d : Dict Text (Entry K)) (var : Text) : Except String (Dict Text (Entry K)) :=
  if (Dict.get? d (agentOf var)).isSome then .ok d
  else match Dict.get? cont var with
    | some e => .ok (Dict.set d (agentOf var) e)
    | none => .error "KeyError"

/-- `agent_states`, guard.py:118-125. -/
def agentStates (cont : Dict Text (Entry K)) (syms : List Text) : Except String (Dict Text (Entry K)) := syms.foldlM (stateStep cont) []

/-- A list? -/
def Entry.isMany : Entry K → Bool
  | .many _ => true
  | .one _ => false

/-- `agent_vars[agent]`, guard.py:126-147: the solver variables in the order of the dimensions of the star set. -/
def agentVars (cont : Dict Text (Entry K)) (agent : Text) : Except String (List Text) :=
  if "tmp_variable".toList <:+: agent then .ok [agent]
  else if '_' ∉ agent then .ok ((varNames cont).filter (fun k => decide (agent <:+: k)))
  else (cont.filter (fun kv => kv.2.isMany)).mapM (fun kv => (attrOf kv.1).map (fun a => agent ++ '_' :: a))

/-- The name of a coefficient, starset.py:371. -/
def alphaName (agent : Text) (j : Nat) : Text := agent ++ "_alpha_".toList ++ Nat.toDigits 10 (j + 1)

/-- `add_constraints`, starset.py:365-391. -/
def starCons (agent : Text) (vars : List Text) : Entry K → Except String (List (Con K))
  | .many _ => .error "AttributeError"
  | .one s =>
    if vars.length < s.center.len then .error "IndexError"
    else .ok ((List.range s.center.len).map (fun d => Con.eq (s.center.at_ d)
        ((List.range s.basis.rows).map (fun j => (s.basis.at_ j d, alphaName agent j))) (vars.getD d [])) ++
      (List.range s.C.rows).map (fun i => Con.le ((List.range s.basis.rows).map (fun j => (s.C.at_ i j, alphaName agent j))) (s.g.at_ i)))

/-- The constraints for one agent. -/
def consOf (cont : Dict Text (Entry K)) (kv : Text × Entry K) : Except String (List (Con K)) :=
  (agentVars cont kv.1).bind (fun vars => starCons kv.1 vars kv.2)

/-- All constraints, guard.py:199-210 (added twice) and 224-225 (added once). -/
def allCons (cont : Dict Text (Entry K)) (z : ZFml K) : Except String (List (Con K)) :=
  (agentStates cont (symbols cont z)).bind (fun st => (st.mapM (consOf cont)).map List.flatten)

/-- The answers of the two queries, guard.py:214-232. -/
def answers (S : StarSolver K) (z : ZFml K) (cs : List (Con K)) : Bool × Bool :=
  if S z (cs ++ cs) = .sat then (true, decide (S (.not z) cs = .unsat)) else (false, false)

/-- `evaluate_guard_cont` with star sets, guard.py:182-232. -/
def contStars [Zero K] [DecidableEq K] (S : StarSolver K) (cont : Dict Text (Entry K)) (fs : List (Fml K)) : Except String (Bool × Bool) :=
  (genList fs).bind (fun r => match r with
    | .inl b => .ok (b, b)
    | .inr z =>
      if !(z.keys.all (fun k => (Dict.get? cont (keyText k)).isSome)) then .error "NameError"
      else if !z.wf then .error "Z3Exception"
      else (allCons cont z).map (answers S z))

/-! ### Ranges of variables for lane queries -/

/-- The agents for lane queries, guard.py:153-158: the first parts of the variables that are not lists. -/
def queryAgents (cont : Dict Text (Entry K)) : List Text :=
  (cont.filter (fun kv => !kv.2.isMany)).map (fun kv => agentOf kv.1)

/-- One step of guard.py:168-174. -/
def indexStep (agent : Text) (vs : List Text) (kv : Text × Entry K) : Except String (List Text) :=
  if kv.2.isMany then .ok vs
  else (attrOf kv.1).map (fun a => if dotted agent a ∈ vs then vs else vs ++ [dotted agent a])

/-- `agent_vars[agent]` of `get_agent_variable_indices`, guard.py:159-174. -/
def indexVars (cont : Dict Text (Entry K)) (agent : Text) : Except String (List Text) :=
  if '_' ∉ agent then .ok ((cont.map Prod.fst).filter (fun k => decide (agent <:+: k)))
  else cont.foldlM (indexStep agent) []

/-- The index of a variable, guard.py:452-458: the last list that has it; -1 is the last dimension. The agents are listed once each; listing
an agent again does not change the result. -/
def varIndex (cont : Dict Text (Entry K)) (var : Text) : Except String (Option Nat) :=
  ((queryAgents cont).mapM (indexVars cont)).map (fun vss =>
    vss.foldl (fun r vs => if var ∈ vs then some (vs.idxOf var) else r) none)

/-- The range of a variable, guard.py:449-459, of a star set with `n` dimensions. -/
def varRange [Field K] [LinearOrder K] (lp : Bool → Vec K → Mat K → Vec K → LPRes K) (cont : Dict Text (Entry K)) (var : Text) : Except String (K × K) :=
  match Dict.get? cont var with
  | none => .error "KeyError"
  | some (.many _) => .error "AttributeError"
  | some (.one s) => (varIndex cont var).bind (fun i => getMaxMin lp s (i.getD (s.center.len - 1)))

end Verif.StarGrd
