import Verif.Model.Engine

/-!
`verse/analysis/simulator.py`: `check_sim_transitions` (78-145), `Simulator.get_transition_simulate` (623-775) and
`Simulator.simulate_one` (199-350), for `config.incremental = False` (empty `cache`, so lines 644-647 take the first branch
and `cached_guards`, `min_trans_ind` stay empty).

Simplifications
* `Env` is what `pack_env` builds (43-75); compiled guards, assert conditions and reset expressions are functions of it
  (Python `eval` of a compiled expression); exceptions inside `eval` are not modelled.
* `sensor.sense` + `pack_env` is the parameter `sense`.
* `TC_simulate` of an agent is the parameter `sim`; it returns rows `(time, state)`.
* values (numbers of the state, strings of the mode) have one type `V`; lists and tuples are not distinguished.
-/

set_option autoImplicit false

namespace Verif.Sim

/-- Exceptions the modelled lines can raise. -/
inductive Err | indexError | keyError | valueError | nameError
deriving DecidableEq, Repr

/-- `ModePath` (parser.py:298-310): `var`, compiled `cond`, compiled `val`. -/
structure Path (Env V : Type) where
  var  : String
  cond : Env → Bool
  val  : Env → V

/-- `_Assert` (parser.py:166-179): `pre` and `cond` compiled. -/
structure Assertion (Env : Type) where
  label : String
  pre   : Env → Bool
  cond  : Env → Bool

/-- The parts of `agent.decision_logic` (parser.py `ControllerIR`) that are used here.
`nargs` is `len(args)`; `cont`/`disc` are the variable lists of the ego state definition; `discType` the mode type names
(of the first state definition, analysis_tree.py:203-205). -/
structure Logic (Env V : Type) where
  nargs    : Nat
  asserts  : List (Assertion Env)
  paths    : List (Path Env V)
  cont     : List String
  disc     : List String
  discType : List String

/-- one row of a trace: time stamp and state -/
structure Row (V : Type) where
  time  : ℚ
  state : List V
deriving DecidableEq

/-- `(agent_id, dest, next_init, paths)` -/
structure Trans (Env V : Type) where
  agent : String
  dest  : List V
  init  : List V
  paths : List (Path Env V)

variable {Env V : Type}

/-- `"mode" in reset_variable` (simulator.py:121): substring test. -/
def hasMode (s : String) : Bool := decide ("mode".toList <:+: s.toList)

/-- lines 86-92: labels of the asserts with true precondition and false condition. -/
def failedAsserts (dl : Logic Env V) (env : Env) : List String :=
  (dl.asserts.filter (fun a => a.pre env && !a.cond env)).map Assertion.label

/-- lines 96-104: `all_resets[path.var].append((path.val, path))` for satisfied guards, keys in first-hit order. -/
def allResets (guards : List (Path Env V)) (env : Env) : Dict String (List (Path Env V)) :=
  guards.foldl (fun d p => if p.cond env then Dict.set d p.var ((Dict.get? d p.var).getD [] ++ [p]) else d) []

/-- `list.index` (`none` = `ValueError`) -/
def indexOf? (l : List String) (s : String) : Option Nat := l.findIdx? (fun x => decide (x = s))

/-- `l[i] = v`, `IndexError` when out of range. -/
def setAt {α : Type} (l : List α) (i : Nat) (v : α) : Except Err (List α) :=
  if i < l.length then .ok (l.set i v) else .error .indexError

/-- Body of the loop over `enumerate(pos)` (lines 117-127): `slots` is `possible_dest` (each entry a single value, with
the path that wrote it if any), `next` is `next_init`. -/
def applyReset (dl : Logic Env V) (env : Env) (acc : List (V × Option (Path Env V)) × List V) (kp : String × Path Env V) :
    Except Err (List (V × Option (Path Env V)) × List V) :=
  let res := kp.2.val env
  if hasMode kp.1 then
    match indexOf? dl.disc kp.1 with
    | none => .error .valueError
    | some i => (setAt acc.1 i (res, some kp.2)).map (fun s => (s, acc.2))
  else
    match indexOf? dl.cont kp.1 with
    | none => .error .valueError
    | some i => (setAt acc.2 i res).map (fun n => (acc.1, n))

/-- Lines 113-144 for one element `pos` of the product: the single destination (`itertools.product` of one-element lists)
with the reset state. -/
def applyResets (dl : Logic Env V) (env : Env) (agent : String) (state mode : List V) (pos : List (String × Path Env V)) :
    Except Err (Trans Env V) :=
  (pos.foldlM (applyReset dl env) (mode.map (fun v => (v, none)), state)).map (fun r =>
    { agent := agent, dest := r.1.map Prod.fst, init := r.2, paths := r.1.filterMap Prod.snd })

/-- `check_sim_transitions` (simulator.py:78-145): `.ok (some labels, [])` if asserts fail, else `.ok (none, satisfied)`. -/
def checkSim (dl : Logic Env V) (guards : List (Path Env V)) (agent : String) (env : Env) (state mode : List V) :
    Except Err (Option (List String) × List (Trans Env V)) :=
  let asserts := failedAsserts dl env
  if asserts ≠ [] then .ok (some asserts, [])
  else
    let all := allResets guards env
    if all = [] then .ok (none, [])                       -- `pos_list == [()]`, lines 111-112
    else
      ((product (all.map (fun kv => kv.2.map (fun p => (kv.1, p))))).mapM (applyResets dl env agent state mode)).map
        (fun l => (none, l))

/-! ### nodes -/

/-- What a worker reads of a node besides the trace; `agents` is the `agent` dict (key, decision logic). -/
structure Body (Env V : Type) where
  agents : List (String × Logic Env V)
  mode   : Dict String (List V)
  init   : Dict String (List V)
  static : Dict String (List V)

abbrev Trace (V : Type) := Dict String (List (Row V))

/-- `state_dict[aid] = (node.trace[aid][idx], node.mode[aid], node.static[aid])` for all agents (lines 720-723). -/
abbrev StateDict (V : Type) := List (String × Row V × List V × List V)

/-- Parameters that stay fixed during an analysis. -/
structure World (Env V : Type) where
  /-- `sensor.sense(agent, state_dict, track_map)` packed by `pack_env` -/
  sense : String → StateDict V → Env
  /-- `TC_simulate(mode, init, remain_time, time_step, lane_map)` of the agent -/
  sim   : String → List V → List V → ℚ → List (Row V)
  /-- `track_map.h(src_track, src_mode, dest_mode)`; modes as the list `get_mode` looks at -/
  mapH  : Option V → List V → List V → Option V
  /-- `config.unsafe_continue` -/
  unsafeContinue : Bool

def stateDict (b : Body Env V) (tr : Trace V) (idx : Nat) : Except Err (StateDict V) :=
  b.agents.mapM (fun a =>
    match Dict.get? tr a.1, Dict.get? b.mode a.1, Dict.get? b.static a.1 with
    | some rows, some m, some s => match rows[idx]? with
      | some r => .ok (a.1, r, m, s)
      | none => .error .indexError
    | _, _, _ => .error .keyError)

/-- Agents that appear in `agent_guard_dict` (lines 697-709): those with a path and with arguments. -/
def guardAgents (b : Body Env V) : List (String × Logic Env V) :=
  b.agents.filter (fun a => decide (a.2.nargs ≠ 0) && !a.2.paths.isEmpty)

/-- `get_track` (analysis_tree.py:201-208) -/
def getTrack (dl : Logic Env V) (mode : List V) : Except Err (Option V) :=
  match indexOf? dl.discType "TrackMode" with
  | none => .ok none
  | some i => match mode[i]? with
    | some v => .ok (some v)
    | none => .error .indexError

/-- `get_mode` (analysis_tree.py:210-224); a single mode is returned as a one-element list, `None` as `[]`. -/
def getMode (dl : Logic Env V) (mode : List V) : Except Err (List V) :=
  match indexOf? dl.discType "TrackMode" with
  | none => .ok mode
  | some t => match (List.range dl.discType.length).find? (fun i => decide (i ≠ t)) with
    | none => .ok []
    | some i => match mode[i]? with
      | some v => .ok [v]
      | none => .error .indexError

/-- Lines 755-772: is the transition kept? `map_modes` is a list holding one list, so the `is not None` test is always
true. -/
def mapAllows [DecidableEq V] (w : World Env V) (dl : Logic Env V) (src dest : List V) : Except Err Bool := do
  let sm ← getMode dl src
  let st ← getTrack dl src
  let dm ← getMode dl dest
  let dt ← getTrack dl dest
  .ok !((decide (sm ≠ dm) || decide (st ≠ dt)) && decide (dt ≠ w.mapH st sm dm))

/-- Result of checking one sample (lines 716-746). -/
structure Sample (Env V : Type) where
  asserts   : Dict String (List String)
  satisfied : List (Trans Env V)

def checkSample (w : World Env V) (b : Body Env V) (tr : Trace V) (idx : Nat) : Except Err (Sample Env V) :=
  (guardAgents b).foldlM (fun acc a => do
    let sd ← stateDict b tr idx
    match Dict.get? tr a.1, Dict.get? b.mode a.1 with
    | some rows, some mode => match rows[idx]? with
      | some row =>
        let (as, sat) ← checkSim a.2 a.2.paths a.1 (w.sense a.1 sd) row.state mode
        match as with
        | some labels => .ok { acc with asserts := Dict.set acc.asserts a.1 labels }
        | none => .ok { acc with satisfied := acc.satisfied ++ sat }
      | none => .error .indexError
    | _, _ => .error .keyError) ⟨[], []⟩

/-- Lines 752-774: filter by the map, group by agent, dedup by destination. -/
def collect [DecidableEq V] (w : World Env V) (b : Body Env V) (sat : List (Trans Env V)) :
    Except Err (Dict String (List (Trans Env V))) := do
  let d ← sat.foldlM (fun (d : Dict String (List (Trans Env V))) t => do
    match Dict.get? b.agents t.agent, Dict.get? b.mode t.agent with
    | some dl, some src =>
      let keep ← mapAllows w dl src t.dest
      if keep then .ok (Dict.set d t.agent ((Dict.get? d t.agent).getD [] ++ [t])) else .ok d
    | _, _ => .error .keyError) []
  .ok (d.map (fun kv => (kv.1, dedupBy Trans.dest kv.2)))

/-- `(asserts, transitions, idx)` as returned by `get_transition_simulate`. -/
structure Found (Env V : Type) where
  asserts : Option (Dict String (List String))
  trans   : Dict String (List (Trans Env V))
  idx     : Nat

/-- The loop `for idx in range(trace_length)` (lines 713-775); `left` samples remain to be checked from `idx`. -/
def scan [DecidableEq V] (w : World Env V) (b : Body Env V) (tr : Trace V) : Nat → Nat → Except Err (Found Env V)
  | 0, idx => if idx = 0 then .error .nameError else .ok ⟨none, [], idx - 1⟩
  | left + 1, idx => do
    let s ← checkSample w b tr idx
    if s.asserts ≠ [] then .ok ⟨some s.asserts, [], idx⟩
    else if s.satisfied.isEmpty then scan w b tr left (idx + 1)
    else do
      let d ← collect w b s.satisfied
      .ok ⟨none, d, idx⟩

/-- `get_transition_simulate` (623-775): `trace_length` is the length of the first trace in the dict. -/
def getTransitionSim [DecidableEq V] (w : World Env V) (b : Body Env V) (tr : Trace V) : Except Err (Found Env V) :=
  match tr with
  | [] => .error .indexError
  | (_, rows) :: _ => scan w b tr rows.length 0

/-- Lines 214-227: fill in missing traces, shifting time by `start_time`. -/
def fillTraces (w : World Env V) (b : Body Env V) (start : ℚ) (remain : ℚ) (tr : Trace V) : Except Err (Trace V) :=
  b.agents.foldlM (fun (tr : Trace V) a =>
    if Dict.mem tr a.1 then .ok tr
    else match Dict.get? b.mode a.1, Dict.get? b.init a.1 with
      | some m, some i => .ok (Dict.set tr a.1
          ((w.sim a.1 m i remain).map (fun r => { r with time := r.time + start })))
      | _, _ => .error .keyError) tr

/-- `{aid: f(node.trace[aid]) for aid in node.agent}` -/
def mapTraces (b : Body Env V) (f : List (Row V) → List (Row V)) (tr : Trace V) : Except Err (Trace V) :=
  b.agents.mapM (fun a => match Dict.get? tr a.1 with
    | some rows => .ok (a.1, f rows)
    | none => .error .keyError)

/-- `list(truncated_trace.values())[0][0][0]` (line 324) -/
def firstTime (trunc : Trace V) : Except Err ℚ :=
  match trunc with
  | (_, r :: _) :: _ => .ok r.time
  | _ => .error .indexError

/-- Lines 320-347 for one combination of transitions. `truncated[aid][0]` of an empty trace raises `IndexError`. -/
def mkChildSim (b : Body Env V) (trunc : Trace V) (combo : List (Trans Env V)) :
    Except Err (Engine.Child (Body Env V) (Trace V)) := do
  let start ← firstTime trunc
  let mode := combo.foldl (fun m t => Dict.set m t.agent t.dest) b.mode
  let init0 := combo.foldl (fun (i : Dict String (List V)) t => Dict.set i t.agent t.init) []
  let (trace, init) ← b.agents.foldlM (fun (acc : Trace V × Dict String (List V)) a =>
    if Dict.mem acc.2 a.1 then .ok acc
    else match Dict.get? trunc a.1 with
      | some (r :: rows) => .ok (Dict.set acc.1 a.1 (r :: rows), Dict.set acc.2 a.1 r.state)
      | some [] => .error .indexError
      | none => .error .keyError) ([], init0)
  .ok { start := start, body := { b with mode := mode, init := init }, trace := trace }

/-- `Simulator.simulate_one` (199-350). -/
def simulateOne [DecidableEq V] (w : World Env V) (n : Engine.Work (Body Env V) (Trace V)) (remain : ℚ) :
    Except Err (Engine.Result (Body Env V) (Trace V) (Option (Dict String (List String)))) := do
  let full ← fillTraces w n.body n.start remain n.trace
  let f ← getTransitionSim w n.body full
  if !w.unsafeContinue && f.asserts.isSome then
    let cut ← mapTraces n.body (fun rows => rows.take f.idx) full
    .ok { next := [], trace := cut, hits := f.asserts }
  else if f.trans = [] then
    .ok { next := [], trace := full, hits := f.asserts }
  else do
    let trunc ← mapTraces n.body (fun rows => rows.drop f.idx) full
    let cut ← mapTraces n.body (fun rows => rows.take (f.idx + 1)) full
    if f.asserts.isSome then .ok { next := [], trace := cut, hits := f.asserts }
    else do
      let kids ← (product (f.trans.map Prod.snd)).mapM (mkChildSim n.body trunc)
      .ok { next := kids, trace := cut, hits := f.asserts }

/-- What is recorded in `assert_hits`, or the exception the worker raised. -/
abbrev Hits := Except Err (Option (Dict String (List String)))

/-- The worker as the exploration loop uses it. An exception in a worker aborts the whole run in Python; here the node keeps
the exception in place of its assertion hits, so "no exception was raised" is visible in the tree. -/
def simStep [DecidableEq V] (w : World Env V) (n : Engine.Work (Body Env V) (Trace V)) (remain : ℚ) :
    Engine.Result (Body Env V) (Trace V) Hits :=
  match simulateOne w n remain with
  | .ok r => { next := r.next, trace := r.trace, hits := .ok r.hits }
  | .error e => { next := [], trace := n.trace, hits := .error e }

end Verif.Sim
