import Verif.Model.Reset

/-!
`verse/analysis/verifier.py`: `Verifier.get_transition_verify_opt` (929-1278), `Verifier.compute_full_reachtube_step` (380-694) and
`Verifier.calculate_full_bloated_tube_simple` (298-377), for `config.incremental = False` (no cache: lines 946-1012, 1089-1095 and the
`cached_guards` do nothing) and without star sets.

Simplifications
* A tube is the list of its rectangles (Python: two rows per rectangle); the time column is kept apart from the state.
* What the sensor returns has the type `S` (parameter `sense`). A guard is given by what the verifier asks about it: `prep`
  (`parse_any_all_new` and `evaluate_guard_disc` on the sensed first rectangle; `none`: it can not be satisfied), and `check`
  (`evaluate_guard_hybrid` and `evaluate_guard_cont`: may be satisfied, is contained). `Model/Guard.lean` models these functions.
* `combine_len` is always 1 (lines 1060-1061), so lines 1132-1142, 1181-1191 and `reduction_needed` are not modelled. `combine_rect`
  of the two rows of one rectangle is that rectangle.
* Evaluating an assert adds unrolled list variables to the sensed dictionary; the model does not keep them for the guards that follow.
* `guard_idx` is always 0, so `reset_idx` is determined by its length.
* lists and tuples are not distinguished.
-/

set_option autoImplicit false

namespace Verif.Ver

open Verif.Rect (Box combineRect rowMin rowMax)

/-- One rectangle of a tube: rows `2 * i` and `2 * i + 1`, with their times. -/
structure Seg (K : Type) where
  t0  : ℚ
  t1  : ℚ
  box : Box K
deriving DecidableEq

abbrev Tube (K : Type) := List (Seg K)

/-- `ModePath` (parser.py:298-310). `cont` is `new_cont_var_dict` after the updater of the guard (line 1158), `disc` the discrete
dictionary. -/
structure Path (S G K V D : Type) where
  var   : String
  prep  : S → Except String (Option G)
  check : G → S → Except String (Bool × Bool)
  cont  : G → S → Except String (Dict Rst.Text (K × K))
  disc  : S → D
  val   : Rst.Val V D

/-- An assert: the results of evaluating precondition and condition (may be satisfied, is contained). -/
structure Assertion (S : Type) where
  label : String
  pre   : S → Except String (Bool × Bool)
  cond  : S → Except String (Bool × Bool)

/-- The parts of a decision logic that are used here. -/
structure Logic (S G K V D : Type) where
  nargs    : Nat
  asserts  : List (Assertion S)
  paths    : List (Path S G K V D)
  cont     : List String
  disc     : List String
  discType : List String

/-- What a worker reads of a node besides the trace. -/
structure Body (S G K V D : Type) where
  agents : List (String × Logic S G K V D)
  mode   : Dict String (List V)
  init   : Dict String (List (Box K))
  static : Dict String (List V)

abbrev Trace (K : Type) := Dict String (Tube K)

/-- `state_dict`: rectangle, mode and static values of every agent. -/
abbrev StateDict (K V : Type) := List (String × Seg K × List V × List V)

/-- Parameters that stay fixed during an analysis. -/
structure World (S K V : Type) where
  /-- `sensor.sense(agent, state_dict, track_map, False)` -/
  sense : String → StateDict K V → S
  /-- `calc_bloated_tube(mode_label, combined_rect, time_horizon, ...)` for the agent -/
  bloat : String → List V → Box K → ℚ → Tube K
  /-- `combine_seg_length` (`consts.init_seg_length`) -/
  segLen : Nat
  /-- `track_map.h(src_track, src_mode, dest_mode)` -/
  mapH : Option V → List V → List V → Option V
  /-- `config.unsafe_continue` -/
  unsafeContinue : Bool
  /-- `round(·, 10)` -/
  round10 : ℚ → ℚ
  /-- `str` on numbers, and what a text denotes -/
  sh : K → Rst.Text
  rd : Rst.Text → Option K

variable {S G K V D : Type}

section
variable [LinearOrder K]

/-- Union of two rectangles, lines 369-376. -/
def joinBox (a b : Box K) : Box K := (rowMin a.1 b.1, rowMax a.2 b.2)

/-- Lines 368-376: the rectangles of `cur` are joined to those of `res` from number `k` on. numpy raises an exception if the shapes
differ. -/
def joinAt (k : Nat) (res cur : Tube K) : Except String (Tube K) :=
  let c := cur.take (res.length - k)
  if c.length = res.length - k then
    .ok (res.take k ++ List.zipWith (fun (s t : Seg K) => { s with box := joinBox s.box t.box }) (res.drop k) c)
  else .error "ValueError"

/-- The loop of lines 338-376 from position `k`; `rest` are the initial rectangles from `k` on, `fuel` bounds the number of rounds.
`res_tube` is `None` before the first round. -/
def fullTubeLoop (bloat : Box K → Tube K) (segLen : Nat) : Nat → Nat → List (Box K) → Option (Tube K) → Except String (Option (Tube K))
  | 0, _, _, res => .ok res
  | _ + 1, _, [], res => .ok res
  | fuel + 1, k, r :: rest, res =>
    (combineRect ((r :: rest).take segLen)).bind fun c =>
      match res with
      | none => fullTubeLoop bloat segLen fuel (k + segLen) ((r :: rest).drop segLen) (some (bloat c))
      | some t =>
        if t.length ≤ k then .ok (some t)
        else (joinAt k t (bloat c)).bind fun t' => fullTubeLoop bloat segLen fuel (k + segLen) ((r :: rest).drop segLen) (some t')

/-- `Verifier.calculate_full_bloated_tube_simple`, lines 298-377. `range(0, n, 0)` raises `ValueError`, `None.tolist()` an
`AttributeError`. -/
def fullTube (bloat : Box K → Tube K) (segLen : Nat) (inits : List (Box K)) : Except String (Tube K) :=
  if segLen = 0 then .error "ValueError"
  else (fullTubeLoop bloat segLen inits.length 0 inits none).bind fun
    | none => .error "AttributeError"
    | some t => .ok t

end

/-- `state_dict` of lines 1027-1029 and 1081-1088. -/
def stateDict (b : Body S G K V D) (tr : Trace K) (idx : Nat) : Except String (StateDict K V) :=
  b.agents.mapM (fun a =>
    match Dict.get? tr a.1, Dict.get? b.mode a.1, Dict.get? b.static a.1 with
    | some segs, some m, some s => match segs[idx]? with
      | some r => .ok (a.1, r, m, s)
      | none => .error "IndexError"
    | _, _, _ => .error "KeyError")

/-- An entry of `agent_guard_dict`, lines 1044-1046. -/
structure Prepared (S G K V D : Type) where
  path : Path S G K V D
  g    : G
  s0   : S

/-- Lines 1033-1046 for the paths of one agent. -/
def preparePaths (s0 : S) : List (Path S G K V D) → Except String (List (Prepared S G K V D))
  | [] => .ok []
  | p :: ps => (p.prep s0).bind fun
    | none => preparePaths s0 ps
    | some g => (preparePaths s0 ps).map (fun l => ⟨p, g, s0⟩ :: l)

/-- Lines 1017-1046: agents without arguments are skipped. -/
def prepare (w : World S K V) (b : Body S G K V D) (tr : Trace K) : Except String (Dict String (List (Prepared S G K V D))) :=
  (stateDict b tr 0).bind fun sd =>
    (b.agents.filter (fun a => decide (a.2.nargs ≠ 0))).mapM (fun a => (preparePaths (w.sense a.1 sd) a.2.paths).map (fun l => (a.1, l)))

/-- Lines 1111-1124: does the assert fail? -/
def assertFails (s : S) (a : Assertion S) : Except String Bool :=
  (a.pre s).bind fun p => if p.1 && p.2 then (a.cond s).map (fun c => !(c.1 && c.2)) else .ok false

/-- Lines 1108-1131. -/
def failing (s : S) : List (Assertion S) → Except String (List String)
  | [] => .ok []
  | a :: as => (assertFails s a).bind fun b => (failing s as).map (fun l => if b then a.label :: l else l)

/-- One entry of `resets[var]`, lines 1171-1180. -/
structure Hit (S G K V D : Type) where
  path : Path S G K V D
  item : Rst.Item K V D

/-- Lines 1155-1180 for one guard; `acc` is `(resets, any_contained)`. -/
def checkPath (s : S) (acc : Dict String (List (Hit S G K V D)) × Bool) (p : Prepared S G K V D) :
    Except String (Dict String (List (Hit S G K V D)) × Bool) :=
  (p.path.check p.g s).bind fun r =>
    if r.1 then
      (p.path.cont p.g s).map fun c =>
        (Dict.set acc.1 p.path.var ((Dict.get? acc.1 p.path.var).getD [] ++ [⟨p.path, ⟨p.path.var, p.path.val, p.path.disc p.s0, c⟩⟩]),
          acc.2 || r.2)
    else .ok (acc.1, acc.2 || r.2)

/-- Result of checking one step (lines 1065-1203). -/
structure Sample (S G K V D : Type) where
  asserts   : Dict String (List String)
  hits      : List (String × List (Hit S G K V D))
  contained : Bool

/-- Lines 1100-1203 for one agent. -/
def checkAgent (w : World S K V) (prep : Dict String (List (Prepared S G K V D))) (sd : StateDict K V)
    (acc : Sample S G K V D) (a : String × Logic S G K V D) : Except String (Sample S G K V D) :=
  (failing (w.sense a.1 sd) a.2.asserts).bind fun fs =>
    if fs ≠ [] then .ok { acc with asserts := Dict.set acc.asserts a.1 fs }
    else (((Dict.get? prep a.1).getD []).foldlM (checkPath (w.sense a.1 sd)) ([], false)).map fun r =>
      { acc with hits := if r.1 = [] then acc.hits else acc.hits ++ (product (r.1.map Prod.snd)).map (fun c => (a.1, c)),
                 contained := acc.contained || r.2 }

/-- Lines 1065-1203. -/
def checkSample (w : World S K V) (b : Body S G K V D) (prep : Dict String (List (Prepared S G K V D))) (tr : Trace K) (idx : Nat) :
    Except String (Sample S G K V D) :=
  (stateDict b tr idx).bind fun sd =>
    (b.agents.filter (fun a => decide (a.2.nargs ≠ 0))).foldlM (checkAgent w prep sd) ⟨[], [], false⟩

/-- What the loop of lines 1064-1215 finds: failed asserts with their index, or `guard_hits`. -/
inductive Scan (S G K V D : Type)
  | asserts (a : Dict String (List String)) (idx : Nat)
  | hits (l : List (Sample S G K V D × Nat))

/-- The loop of lines 1064-1215; `left` steps remain from `idx` on, `acc` is `guard_hits`. -/
def scan (w : World S K V) (b : Body S G K V D) (prep : Dict String (List (Prepared S G K V D))) (tr : Trace K) :
    Nat → Nat → List (Sample S G K V D × Nat) → Except String (Scan S G K V D)
  | 0, _, acc => .ok (.hits acc)
  | left + 1, idx, acc => (checkSample w b prep tr idx).bind fun s =>
    if s.asserts ≠ [] then .ok (.asserts s.asserts idx)
    else if s.hits.isEmpty then
      if !acc.isEmpty || s.contained then .ok (.hits acc) else scan w b prep tr left (idx + 1) acc
    else if s.contained then .ok (.hits (acc ++ [(s, idx)]))
    else scan w b prep tr left (idx + 1) (acc ++ [(s, idx)])

/-- One reset that is possible: agent, destination (`None` if there is none), rectangle after the reset, index, and how. -/
structure Event (S G K V D : Type) where
  agent : String
  dest  : Option (List V)
  rect  : Box K
  idx   : Nat
  combo : List (Hit S G K V D)

section
variable [Field K] [LinearOrder K]

/-- Lines 1223-1242 for one hit. -/
def eventsOf (w : World S K V) (b : Body S G K V D) (tr : Trace K) (idx : Nat) (h : String × List (Hit S G K V D)) :
    Except String (List (Event S G K V D)) :=
  match Dict.get? b.agents h.1, Dict.get? tr h.1, Dict.get? b.mode h.1 with
  | some dl, some segs, some m => match segs[idx]? with
    | some seg => (Rst.applyReset w.sh w.rd dl.cont dl.disc m seg.box (h.2.map Hit.item)).map fun r =>
        (if r.1.isEmpty then [none] else r.1.map some).map (fun d => ⟨h.1, d, r.2, idx, h.2⟩)
    | none => .error "IndexError"
  | _, _, _ => .error "KeyError"

/-- Lines 1219-1242: everything that is put into `reset_dict`, in order. -/
def events (w : World S K V) (b : Body S G K V D) (tr : Trace K) (l : List (Sample S G K V D × Nat)) :
    Except String (List (Event S G K V D)) :=
  (l.mapM (fun (s : Sample S G K V D × Nat) => (s.1.hits.mapM (eventsOf w b tr s.2)).map List.flatten)).map List.flatten

end

/-- The entries of a list by key, keys in the order of their first entry (a `dict` of lists). -/
def group {α β : Type} [DecidableEq β] (key : α → β) (l : List α) : Dict β (List α) :=
  l.foldl (fun (d : Dict β (List α)) x => Dict.set d (key x) ((Dict.get? d (key x)).getD [] ++ [x])) []

/-- A transition, line 1254: `(agent, node.mode[agent], dest, rectangles, indices, paths)`. -/
structure Trans (S G K V D : Type) where
  agent : String
  dest  : Option (List V)
  inits : List (Box K)
  idxs  : List Nat
  paths : List (Path S G K V D)

/-- `reset_dict` flattened, lines 1227-1242 and 1248-1254: the entries by agent, then by `reset_idx`, then by destination. -/
def grouped [DecidableEq V] (evs : List (Event S G K V D)) : List (Trans S G K V D) :=
  (group Event.agent evs).flatMap fun ga =>
    (group (fun (e : Event S G K V D) => e.combo.length) ga.2).flatMap fun gi =>
      (group Event.dest gi.2).map fun gd =>
        { agent := ga.1, dest := gd.1, inits := gd.2.map Event.rect, idxs := gd.2.map Event.idx,
          paths := (gd.2.head?.map (fun e => e.combo.map Hit.path)).getD [] }

/-- The decision logic as `get_track` and `get_mode` see it. -/
def asSim (discType : List String) : Sim.Logic Unit V := ⟨0, [], [], [], [], discType⟩

/-- Exceptions of `get_track` and `get_mode`. -/
def liftErr {α : Type} (x : Except Sim.Err α) : Except String α :=
  match x with
  | .ok a => .ok a
  | .error _ => .error "IndexError"

/-- Lines 1255-1265: is the transition kept? `get_mode(agent, None)` raises an exception. -/
def mapAllows [DecidableEq V] (w : World S K V) (discType : List String) (src : List V) (dest : Option (List V)) : Except String Bool :=
  match dest with
  | none => .error "TypeError"
  | some dest =>
    (liftErr (Sim.getMode (asSim discType) src)).bind fun sm =>
    (liftErr (Sim.getTrack (asSim discType) src)).bind fun st =>
    (liftErr (Sim.getMode (asSim discType) dest)).bind fun dm =>
    (liftErr (Sim.getTrack (asSim discType) dest)).map fun dt =>
      !((decide (sm ≠ dm) || decide (st ≠ dt)) && decide (dt ≠ w.mapH st sm dm))

/-- Lines 1248-1275. -/
def permitted [DecidableEq V] (w : World S K V) (b : Body S G K V D) : List (Trans S G K V D) → Except String (List (Trans S G K V D))
  | [] => .ok []
  | t :: ts =>
    match Dict.get? b.agents t.agent, Dict.get? b.mode t.agent with
    | some dl, some src => (mapAllows w dl.discType src t.dest).bind fun keep =>
        (permitted w b ts).map (fun l => if keep then t :: l else l)
    | _, _ => .error "KeyError"

/-- What `get_transition_verify_opt` returns. -/
inductive Found (S G K V D : Type)
  | asserts (a : Dict String (List String)) (idx : Nat)
  | trans (l : List (Trans S G K V D))

/-- `int(min(len(v) for v in node.trace.values()) // 2)`, line 1059. -/
def traceLength (tr : Trace K) : Except String Nat :=
  match tr.map (fun kv => kv.2.length) with
  | [] => .error "ValueError"
  | n :: ns => .ok (ns.foldl min n)

section
variable [Field K] [LinearOrder K] [DecidableEq V]

/-- `Verifier.get_transition_verify_opt`, lines 929-1278. -/
def getTransitions (w : World S K V) (b : Body S G K V D) (tr : Trace K) : Except String (Found S G K V D) :=
  (prepare w b tr).bind fun prep =>
    (traceLength tr).bind fun n =>
      (scan w b prep tr n 0 []).bind fun
        | .asserts a idx => .ok (.asserts a idx)
        | .hits l => (events w b tr l).bind fun evs => (permitted w b (grouped evs)).map .trans

/-- Lines 404-553 with DryVR: the missing tubes are computed, and their time shifted. -/
def fillTubes (w : World S K V) (b : Body S G K V D) (start remain : ℚ) (tr : Trace K) : Except String (Trace K) :=
  b.agents.foldlM (fun (tr : Trace K) a =>
    if Dict.mem tr a.1 then .ok tr
    else match Dict.get? b.mode a.1, Dict.get? b.init a.1 with
      | some m, some i => (fullTube (fun r => w.bloat a.1 m r remain) w.segLen i).map (fun t =>
          Dict.set tr a.1 (t.map (fun s => { s with t0 := s.t0 + start, t1 := s.t1 + start })))
      | _, _ => .error "KeyError") tr

/-- `{aid: f(node.trace[aid]) for aid in node.agent}` -/
def mapTubes (b : Body S G K V D) (f : Tube K → Tube K) (tr : Trace K) : Except String (Trace K) :=
  b.agents.mapM (fun a => match Dict.get? tr a.1 with
    | some segs => .ok (a.1, f segs)
    | none => .error "KeyError")

/-- Line 654. -/
def firstTime (trunc : Trace K) : Except String ℚ :=
  match trunc with
  | (_, s :: _) :: _ => .ok s.t0
  | _ => .error "IndexError"

/-- Lines 657-665 for one agent; `acc` is `(next_node_init, next_node_trace)`. -/
def childAgent (t : Trans S G K V D) (trunc : Trace K) (acc : Dict String (List (Box K)) × Trace K) (a : String × Logic S G K V D) :
    Except String (Dict String (List (Box K)) × Trace K) :=
  if a.1 = t.agent then .ok (Dict.set acc.1 a.1 t.inits, acc.2)
  else match Dict.get? trunc a.1 with
    | some (s :: segs) => .ok (Dict.set acc.1 a.1 [s.box], Dict.set acc.2 a.1 (s :: segs))
    | some [] => .error "IndexError"
    | none => .error "KeyError"

/-- Lines 636-674 for one transition with a destination. -/
def mkChild (w : World S K V) (b : Body S G K V D) (full : Trace K) (t : Trans S G K V D) (dest : List V) (start : Nat) :
    Except String (Engine.Child (Body S G K V D) (Trace K)) :=
  (mapTubes b (fun segs => segs.drop start) full).bind fun trunc =>
    (firstTime trunc).bind fun t0 =>
      (b.agents.foldlM (childAgent t trunc) ([], [])).map fun it =>
        { start := w.round10 t0, body := { b with mode := Dict.set b.mode t.agent dest, init := it.1 }, trace := it.2 }

/-- Lines 629-674: the child of a transition, and `idx[-1]`. A transition without destination has no child. -/
def childOf (w : World S K V) (b : Body S G K V D) (full : Trace K) (t : Trans S G K V D) :
    Except String (List (Engine.Child (Body S G K V D) (Trace K)) × Nat) :=
  match t.idxs.head?, t.idxs.getLast? with
  | some start, some stop => match t.dest with
    | none => .ok ([], stop)
    | some dest => (mkChild w b full t dest start).map (fun c => ([c], stop))
  | _, _ => .error "IndexError"

/-- `Verifier.compute_full_reachtube_step`, lines 380-694; the result has the children, the trace and the failed asserts. With
`unsafe_continue`, failed asserts lead to `itertools.groupby(None)`. -/
def verifyOne (w : World S K V) (n : Engine.Work (Body S G K V D) (Trace K)) (remain : ℚ) :
    Except String (Engine.Result (Body S G K V D) (Trace K) (Option (Dict String (List String)))) :=
  (fillTubes w n.body n.start remain n.trace).bind fun full =>
    (getTransitions w n.body full).bind fun
      | .asserts a idx =>
        if w.unsafeContinue then .error "TypeError"
        else (mapTubes n.body (fun segs => segs.take (idx + 1)) full).map fun cut => { next := [], trace := cut, hits := some a }
      | .trans [] => .ok { next := [], trace := full, hits := none }
      | .trans (t :: ts) => ((t :: ts).mapM (childOf w n.body full)).bind fun cs =>
          (mapTubes n.body (fun segs => segs.take ((cs.map Prod.snd).foldl max 0 + 1)) full).map fun cut =>
            { next := (cs.map Prod.fst).flatten, trace := cut, hits := none }

/-- What is recorded in `assert_hits`, or the exception the worker raised. -/
abbrev Hits := Except String (Option (Dict String (List String)))

/-- The worker as the exploration loop uses it. An exception in a worker aborts the whole run in Python; here the node keeps the exception
in place of its assertion hits. -/
def verStep (w : World S K V) (n : Engine.Work (Body S G K V D) (Trace K)) (remain : ℚ) : Engine.Result (Body S G K V D) (Trace K) Hits :=
  match verifyOne w n remain with
  | .ok r => { next := r.next, trace := r.trace, hits := .ok r.hits }
  | .error e => { next := [], trace := n.trace, hits := .error e }

end

end Verif.Ver
