import Verif.Model.Basic

/-!
The exploration loop shared by `Simulator.simulate` and `Verifier.compute_full_reachtube`
(verse/analysis/simulator.py:352-498, verse/analysis/verifier.py:696-925): a work list, an optional pool of remote
tasks whose completion order is arbitrary (`ray.wait`), and a list `self.nodes` indexed by node id.

Simplifications (all stated in DESIGN.md):
* `config.incremental = False` (no cache consulted, `cache_updates` ignored) – the incremental caches are modelled in
  `Model/Incremental.lean`;
* what a worker computes for a node (`simulate_one` / `compute_full_reachtube_step`) is a parameter `step`, a function
  of the node's contents and of the remaining time;
* Python object references are positions in the heap list `nodes`. The attribute `id` is kept separately.
-/

set_option autoImplicit false

namespace Verif.Engine

/-- Contents of an `AnalysisTreeNode` (analysis_tree.py:91-119) that a worker reads: `init`, `mode`, `static`,
`uncertain_param`, `agent` are packed in `body : X`; `trace` is the (possibly partly filled) trace dict. -/
structure Work (X T : Type) where
  height : Nat
  start  : ℚ
  body   : X
  trace  : T
deriving DecidableEq

/-- What `new_child` (analysis_tree.py:148-171) is given. -/
structure Child (X T : Type) where
  start : ℚ
  body  : X
  trace : T
deriving DecidableEq

/-- The part of the tuple returned by `simulate_one` (simulator.py:207) or `compute_full_reachtube_step`
(verifier.py:391) that concerns the tree. -/
structure Result (X T A : Type) where
  next  : List (Child X T)
  trace : T
  hits  : A

/-- An `AnalysisTreeNode` object on the heap. -/
structure Rec (X T A : Type) where
  id     : Int
  height : Nat
  start  : ℚ
  body   : X
  trace  : T
  hits   : A
  child  : List Nat

def Rec.work {X T A} (r : Rec X T A) : Work X T := ⟨r.height, r.start, r.body, r.trace⟩

/-- Which of the two loops: they differ in what `proc_result` copies back. -/
inductive Kind | sim | ver
deriving DecidableEq

structure Cfg (X T A : Type) where
  kind      : Kind
  /-- `config.parallel` -/
  parallel  : Bool
  /-- `config.parallel_sim_ahead` / `parallel_ver_ahead` -/
  ahead     : Nat
  /-- `None` is `float("inf")` (simulator.py:408-409, verifier.py:773-774) -/
  maxHeight : Option Nat
  horizon   : ℚ
  /-- `round(·, 10)` -/
  round10   : ℚ → ℚ
  /-- `round(·, ndigits)` of analysis_tree.py:113 -/
  roundN    : ℚ → ℚ
  /-- the worker; second argument is `remain_time` -/
  step      : Work X T → ℚ → Result X T A
  /-- `{}` given to `assert_hits` by `new_child` (analysis_tree.py:168) -/
  noHits    : A

variable {X T A : Type}

structure St (X T A : Type) where
  nodes : List (Rec X T A)
  /-- `(node, later)` -/
  queue : List (Nat × Nat)
  /-- remote tasks: `node.id` and the value the task will return -/
  refs  : List (Int × Result X T A)

/-- `simulation_queue = [(root, 0)]`, `nodes = [root]`, `result_refs = []` (simulator.py:411-413,
verifier.py:776-778). The root has id 0, height 0, start 0 (analysis_tree.py:121-146). -/
def St.init (cfg : Cfg X T A) (body : X) (trace : T) : St X T A :=
  { nodes := [⟨0, 0, cfg.roundN 0, body, trace, cfg.noHits, []⟩], queue := [(0, 0)], refs := [] }

/-- `node.height >= max_height - 1` (simulator.py:427, verifier.py:801) over the integers. -/
def Cfg.tooDeep (cfg : Cfg X T A) (h : Nat) : Bool :=
  match cfg.maxHeight with
  | none => false
  | some m => decide (m ≤ h + 1)

/-- `remain_time = round(time_horizon - node.start_time, 10)` (simulator.py:431, verifier.py:806). -/
def Cfg.remain (cfg : Cfg X T A) (start : ℚ) : ℚ := cfg.round10 (cfg.horizon - start)

/-- `node.new_child(..., id=-1)` followed by `node.id = i + 1 + last_id`
(analysis_tree.py:148-171, simulator.py:360-361, verifier.py:715-716). -/
def mkChild (cfg : Cfg X T A) (parentHeight : Nat) (lastId : Int) (i : Nat) (c : Child X T) : Rec X T A :=
  ⟨(i : Int) + 1 + lastId, parentHeight + 1, cfg.roundN c.start, c.body, c.trace, cfg.noHits, []⟩

inductive Err | indexError | waitOnNothing
deriving DecidableEq

/-- position of `self.nodes[id]` with Python's negative indices -/
def pos (n : Nat) (id : Int) : Option Nat :=
  if 0 ≤ id then (if id.toNat < n then some id.toNat else none)
  else if -(n : Int) ≤ id then some (n + id).toNat else none

/-- `if done_node.height <= max_height` (verifier.py:718,721); `Simulator.proc_result` has no such test. -/
def Cfg.enqueues (cfg : Cfg X T A) (doneHeight : Nat) : Bool :=
  match cfg.kind, cfg.maxHeight with
  | .ver, some m => decide (doneHeight ≤ m)
  | _, _ => true

/-- `assert_hits` of the finished node after `proc_result`: `Verifier.proc_result` copies it from the returned tuple
(verifier.py:712), `Simulator.proc_result` leaves the attribute of the main process's object alone, which the worker has
set (simulator.py:243) only if it ran in the same process. -/
def Cfg.finalHits (cfg : Cfg X T A) (remote : Bool) (old new : A) : A :=
  match cfg.kind with
  | .ver => new
  | .sim => if remote then old else new

/-- `proc_result` (simulator.py:352-365, verifier.py:696-722). `remote`: the
worker ran in another process on a copy of the node. -/
def procResult (cfg : Cfg X T A) (remote : Bool) (id : Int) (r : Result X T A) (s : St X T A) :
    Except Err (St X T A) :=
  match pos s.nodes.length id, s.nodes.getLast? with
  | some p, some last =>
    match s.nodes[p]? with
    | none => .error .indexError
    | some done =>
      let n := s.nodes.length
      let kids := r.next.zipIdx.map (fun ci => mkChild cfg done.height last.id ci.2 ci.1)
      let done' := { done with child := (List.range r.next.length).map (n + ·), trace := r.trace, hits := cfg.finalHits remote done.hits r.hits }
      let newQ := if cfg.enqueues done.height then
          (List.range r.next.length).map (fun i => (n + i, if i = 0 then 0 else 1)) else []
      .ok { nodes := s.nodes.set p done' ++ (if cfg.enqueues done.height then kids else [])
            queue := stableSort Prod.snd (s.queue ++ newQ)
            refs := s.refs }
  | _, _ => .error .indexError

/-- `ray.wait(self.result_refs)` returns one finished task – which one is up to the environment (`pick`) – and the
remaining ones; then `proc_result` (simulator.py:490-494, verifier.py:898-919). -/
def wait (cfg : Cfg X T A) (pick : Nat) (s : St X T A) : Except Err (St X T A) :=
  match s.refs[pick % s.refs.length]? with
  | none => .error .waitOnNothing
  | some (id, r) => procResult cfg true id r { s with refs := s.refs.eraseIdx (pick % s.refs.length) }

/-- One iteration of `while True` (simulator.py:421-494, verifier.py:795-919); `.ok none` means `break`. -/
def loopStep (cfg : Cfg X T A) (pick : Nat) (s : St X T A) : Except Err (Option (St X T A)) :=
  match s.queue with
  | (p, _) :: q =>
    match s.nodes[p]? with
    | none => .error .indexError
    | some node =>
      if cfg.tooDeep node.height then .ok (some { s with queue := q })
      else if cfg.remain node.start ≤ 0 then .ok (some { s with queue := q })
      else
        let r := cfg.step node.work (cfg.remain node.start)
        let s1 : Except Err (St X T A) :=
          if cfg.parallel then .ok { s with queue := q, refs := s.refs ++ [(node.id, r)] }
          else procResult cfg false node.id r { s with queue := q }
        match s1 with
        | .error e => .error e
        | .ok s1 =>
          if cfg.ahead ≤ s1.refs.length then (wait cfg pick s1).map some else .ok (some s1)
  | [] => if s.refs = [] then .ok none else (wait cfg pick s).map some

/-- Run the loop under a schedule (one `pick` per iteration); `.ok (s, true)` means the loop ended by `break` in
state `s`, `.ok (s, false)` that the schedule was used up. -/
def run (cfg : Cfg X T A) : List Nat → St X T A → Except Err (St X T A × Bool)
  | [], s => .ok (s, false)
  | pick :: rest, s =>
    match loopStep cfg pick s with
    | .error e => .error e
    | .ok none => .ok (s, true)
    | .ok (some s') => run cfg rest s'

end Verif.Engine
