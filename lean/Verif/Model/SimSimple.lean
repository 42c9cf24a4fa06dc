import Verif.Model.Simulator

/-!
`Simulator.simulate_simple` (verse/analysis/simulator.py:500-620) and `get_transition_simulate_simple` (778-880): simulation with the
decision logic run by the Python interpreter.

Simplifications
* The decision logic is a function `ctl` of the attributes of `ego` and of the other arguments. Members of enumerations and their names
  are not distinguished; whether a value is the name of a member is `isName`.
* The other arguments, built by `sensor.sense` and `pack_env`, are the parameter `others`; of the namespaces in them only the names of the attributes are used.
* `TC_simulate` is a parameter; values have one type `V`, as in `Verif.Model.Simulator`.
-/

set_option autoImplicit false

namespace Verif.Simple

open Verif.Sim (Row Err StateDict)

/-- A state definition, verse/parser/parser.py:55-66. -/
structure Def where
  cont   : List String
  disc   : List String
  static : List String

/-- What a call of `decisionLogic` does: it returns an object, leaving `ego` with these attributes; or an assertion fails, with the message
if there is one; or it raises another exception. -/
inductive Outcome (V : Type) where
  | ret (ego out : Dict String V)
  | failed (label : Option String)
  | raised

/-- The parts of `agent.decision_logic` that are used: `nargs` is `len(args)`, `hasPaths` says whether `paths` is not empty, `defs` are all
`state_defs`, `ego` is that of the type of `ego`, `other` that of the other argument. -/
structure Logic (R V : Type) where
  nargs    : Nat
  hasPaths : Bool
  defs     : List Def
  ego      : Def
  other    : Option Def
  isName   : String → V → Bool
  ctl      : Dict String V → R → Outcome V

/-- The parts of a node that are read. -/
structure Body (R V : Type) where
  agents : List (String × Logic R V)
  mode   : Dict String (List V)
  init   : Dict String (List V)
  static : Dict String (List V)

abbrev Trace (V : Type) := Dict String (List (Row V))

structure World (R V : Type) where
  /-- the other arguments of the decision logic of an agent -/
  others : String → StateDict V → R
  /-- the attributes of the namespaces in the other arguments -/
  fields : R → List (String × V)
  /-- `TC_simulate(mode, init, remain_time, time_step, lane_map)` -/
  sim    : String → List V → List V → ℚ → List (Row V)

variable {R V : Type} [DecidableEq V]

/-- verse/analysis/simulator.py:709-711, 796-798, 806-808: `state_dict`. -/
def stateDict (b : Body R V) (tr : Trace V) (idx : Nat) : Except Err (StateDict V) :=
  b.agents.mapM (fun a =>
    match Dict.get? tr a.1, Dict.get? b.mode a.1, Dict.get? b.static a.1 with
    | some rows, some m, some s => match rows[idx]? with
      | some r => .ok (a.1, r, m, s)
      | none => .error .indexError
    | _, _, _ => .error .keyError)

/-- verse/sensor/base_sensor.py:18-22 and `pack_env`, verse/analysis/simulator.py:43-53: the attributes of `ego`. -/
def egoFields (df : Def) (state mode static : List V) : Dict String V :=
  (df.cont.zip state ++ df.disc.zip mode ++ df.static.zip static).foldl (fun d kv => Dict.set d kv.1 kv.2) []

/-- The number of state definitions with this mode variable. -/
def discCount (l : Logic R V) (f : String) : Nat := (l.defs.filter (fun d => decide (f ∈ d.disc))).length

/-- `disc_field`, 169-174. -/
def discField (l : Logic R V) (f : String) : Bool := l.defs.any (fun d => decide (f ∈ d.disc))

/-- `convertStrToEnum`, 148-157, for one attribute: the value is replaced by the member once for each state definition with this
mode variable, and a member is not the name of a member. -/
def convertOk (l : Logic R V) (kv : String × V) : Bool :=
  match discCount l kv.1 with
  | 0 => true
  | 1 => l.isName kv.1 kv.2
  | _ => false

/-- Equality of namespaces: the same attributes with equal values. -/
def sameFields (d e : Dict String V) : Bool :=
  d.all (fun kv => decide (Dict.get? e kv.1 = Dict.get? d kv.1)) && e.all (fun kv => decide (Dict.get? d kv.1 = Dict.get? e kv.1))

/-- `getattr(output, field)` for some attributes of `ego`. -/
def getFields (out : Dict String V) (fs : List String) : Except Err (List V) :=
  fs.mapM (fun f => match Dict.get? out f with | some v => .ok v | none => .error .keyError)

/-- What one agent decides at one sample. -/
inductive Decision (V : Type) where
  | stay
  | switch (dest init : List V)
  | failed (label : String)
  deriving DecidableEq

/-- 838-866, after the call. -/
def decideOf (l : Logic R V) : Outcome V → Except Err (Decision V)
  | .ret ego out =>
    if sameFields ego out then .ok .stay
    else do
      let dest ← getFields out ((Dict.keys ego).filter (fun f => discField l f))
      let init ← getFields out ((Dict.keys ego).filter (fun f => !discField l f))
      .ok (.switch dest init)
  | .failed (some s) => .ok (.failed s)
  | .failed none => .error .indexError
  | .raised => .error .valueError

/-- 803-866: the call of the decision logic of one agent. -/
def decision (w : World R V) (l : Logic R V) (a : String) (sd : StateDict V) (state mode static : List V) : Except Err (Decision V) :=
  let ego := egoFields l.ego state mode static
  let rest := w.others a sd
  if ego.all (convertOk l) && (w.fields rest).all (convertOk l) then decideOf l (l.ctl ego rest) else .error .keyError

/-- The agents in `agent_guard_dict`, 788-802. -/
def deciders (b : Body R V) : List (String × Logic R V) := b.agents.filter (fun a => decide (a.2.nargs ≠ 0) && a.2.hasPaths)

/-- What the loop over the agents collects at one sample: `all_asserts` and `satisfied_guard`. -/
structure Sample (V : Type) where
  asserts   : Dict String String
  satisfied : List (String × List V × List V)

/-- One agent, 812-866. -/
def decAt (w : World R V) (b : Body R V) (tr : Trace V) (idx : Nat) (sd : StateDict V) (a : String × Logic R V) : Except Err (Decision V) :=
  match Dict.get? tr a.1, Dict.get? b.mode a.1, Dict.get? b.static a.1 with
  | some rows, some m, some s => match rows[idx]? with
    | some row => decision w a.2 a.1 sd row.state m s
    | none => .error .indexError
  | _, _, _ => .error .keyError

/-- `all_asserts` and `satisfied_guard` with the decision of one more agent, 856 and 862-866. -/
def record (acc : Sample V) (a : String) : Decision V → Sample V
  | .stay => acc
  | .switch dest init => { acc with satisfied := acc.satisfied ++ [(a, dest, init)] }
  | .failed l => { acc with asserts := Dict.set acc.asserts a l }

/-- 805-868: one sample. -/
def sample (w : World R V) (b : Body R V) (tr : Trace V) (idx : Nat) : Except Err (Sample V) :=
  (stateDict b tr idx).bind (fun sd => (deciders b).foldlM (fun acc a => (decAt w b tr idx sd a).map (record acc a.1)) ⟨[], []⟩)

/-- `transitions`: for each agent the list of its transitions, 870-880. -/
def groupTrans (l : List (String × List V × List V)) : Dict String (List (String × List V × List V)) :=
  l.foldl (fun d t => Dict.set d t.1 ((Dict.get? d t.1).getD [] ++ [t])) []

/-- `(asserts, transitions, idx)`. -/
structure Found (V : Type) where
  asserts : Option (Dict String String)
  trans   : Dict String (List (String × List V × List V))
  idx     : Nat

/-- The loop over the samples, 805-880; `left` samples remain. -/
def scan (w : World R V) (b : Body R V) (tr : Trace V) : Nat → Nat → Except Err (Found V)
  | 0, idx => if idx = 0 then .error .nameError else .ok ⟨none, [], idx - 1⟩
  | left + 1, idx => (sample w b tr idx).bind (fun s =>
      if s.asserts ≠ [] then .ok ⟨some s.asserts, groupTrans s.satisfied, idx⟩
      else if s.satisfied = [] then scan w b tr left (idx + 1)
      else .ok ⟨none, groupTrans s.satisfied, idx⟩)

/-- `get_transition_simulate_simple`, 778-880. -/
def getTransition (w : World R V) (b : Body R V) (tr : Trace V) : Except Err (Found V) :=
  match tr with
  | [] => .error .indexError
  | (_, rows) :: _ => scan w b tr rows.length 0

/-- 539-550: the traces of all agents, also of those that already have one. -/
def traces (w : World R V) (b : Body R V) (start remain : ℚ) (tr : Trace V) : Except Err (Trace V) :=
  b.agents.foldlM (fun (tr : Trace V) a => match Dict.get? b.mode a.1, Dict.get? b.init a.1 with
    | some m, some i => .ok (Dict.set tr a.1 ((w.sim a.1 m i remain).map (fun r => { r with time := r.time + start })))
    | _, _ => .error .keyError) tr

/-- A node on the heap. -/
structure Rec (R V : Type) where
  height : Nat
  start  : ℚ
  body   : Body R V
  trace  : Trace V
  /-- `assert_hits`; `none` is `None`, new nodes have `{}` -/
  hits   : Option (Dict String String)
  child  : List Nat

/-- `node.trace[agent_idx][transition_idx:]` and the like for all agents, 565-570. -/
def cutTraces (b : Body R V) (f : List (Row V) → List (Row V)) (tr : Trace V) : Except Err (Trace V) :=
  b.agents.mapM (fun a => match Dict.get? tr a.1 with
    | some rows => .ok (a.1, f rows)
    | none => .error .keyError)

/-- `list(truncated_trace.values())[0][0][0]`, 593. -/
def firstTime (trunc : Trace V) : Except Err ℚ :=
  match trunc with
  | (_, r :: _) :: _ => .ok r.time
  | _ => .error .indexError

/-- One step of the loop 603-606 over all agents. -/
def restStep (trunc : Trace V) (acc : Trace V × Dict String (List V)) (a : String × Logic R V) : Except Err (Trace V × Dict String (List V)) :=
  if (Dict.get? acc.2 a.1).isSome then .ok acc
  else match Dict.get? trunc a.1 with
    | some (r :: rows) => .ok (Dict.set acc.1 a.1 (r :: rows), Dict.set acc.2 a.1 r.state)
    | some [] => .error .indexError
    | none => .error .keyError

/-- 589-617: the child for one combination of transitions. -/
def mkChild (roundN : ℚ → ℚ) (n : Rec R V) (trunc : Trace V) (combo : List (String × List V × List V)) : Except Err (Rec R V) :=
  (firstTime trunc).bind (fun t =>
    let mode := combo.foldl (fun m x => Dict.set m x.1 x.2.1) n.body.mode
    let init := combo.foldl (fun (i : Dict String (List V)) x => Dict.set i x.1 x.2.2) []
    (n.body.agents.foldlM (restStep trunc) ([], init)).map (fun ti =>
      { height := n.height + 1, start := roundN t, body := { n.body with mode := mode, init := ti.2 }, trace := ti.1, hits := some [], child := [] }))

/-- 539-617: the simulation of one node; the new contents of the node, and its children. -/
def expand (w : World R V) (roundN : ℚ → ℚ) (n : Rec R V) (remain : ℚ) : Except Err (Rec R V × List (Rec R V)) := do
  let full ← traces w n.body n.start remain n.trace
  let f ← getTransition w n.body full
  if f.trans = [] ∧ f.asserts = none then .ok ({ n with trace := full, hits := none }, [])
  else do
    let trunc ← cutTraces n.body (fun rows => rows.drop f.idx) full
    let cut ← cutTraces n.body (fun rows => rows.take (f.idx + 1)) full
    match f.asserts with
    | some a => .ok ({ n with trace := cut, hits := some a }, [])
    | none => (product (f.trans.map Prod.snd)).mapM (mkChild roundN n trunc) |>.map (fun kids => ({ n with trace := cut, hits := none }, kids))

/-- The parameters of a call. -/
structure Cfg where
  /-- `None` is `float("inf")`, 512-513 -/
  maxHeight : Option Nat
  horizon   : ℚ
  /-- `round(·, 10)` -/
  round10   : ℚ → ℚ
  /-- `round(·, ndigits)` of analysis_tree.py:113 -/
  roundN    : ℚ → ℚ

/-- 521: `node.height >= max_height - 1`. -/
def Cfg.tooDeep (c : Cfg) (h : Nat) : Bool :=
  match c.maxHeight with
  | none => false
  | some m => decide (m ≤ h + 1)

/-- 533-535: the node is not simulated. -/
def Cfg.skips (c : Cfg) (n : Rec R V) : Bool := c.tooDeep n.height || decide (c.round10 (c.horizon - n.start) ≤ 0)

/-- The loop 518-617 with at most `fuel` iterations; `none` if the queue is not empty then. -/
def run (w : World R V) (c : Cfg) : Nat → List (Rec R V) → List Nat → Except Err (Option (List (Rec R V)))
  | _, nodes, [] => .ok (some nodes)
  | 0, _, _ :: _ => .ok none
  | fuel + 1, nodes, i :: q => match nodes[i]? with
    | none => .error .indexError
    | some n =>
      if c.skips n then run w c fuel nodes q
      else (expand w c.roundN n (c.round10 (c.horizon - n.start))).bind (fun r =>
        let new := (List.range r.2.length).map (fun k => nodes.length + k)
        run w c fuel (nodes.set i { r.1 with child := r.1.child ++ new } ++ r.2) (q ++ new))

/-- `simulate_simple`, 500-620: all nodes of the tree; the root is the first. -/
def simulateSimple (w : World R V) (c : Cfg) (fuel : Nat) (b : Body R V) : Except Err (Option (List (Rec R V))) :=
  run w c fuel [{ height := 0, start := c.roundN 0, body := b, trace := [], hits := some [], child := [] }] [0]

end Verif.Simple
