import Verif.Model.Contains
import Mathlib.Algebra.Order.Floor.Ring
import Mathlib.Data.Rat.Floor

/-!
`verse/scenario/scenario.py`: the command line of experiments (`ExprConfig.from_arg`, 423-444) and `Benchmark` (459-574) without `swap_dl`.

Simplifications
* the scenario, `simulate` and `verify` are parameters (their models: `Scenario`, `Simulator`, `Verifier`, `Session`); they take the positional and the
  keyword arguments, and return a tree and the scenario afterwards (its caches and past runs), or raise;
* of the configuration, the three options that the command line sets are fields, and the others are a dictionary with the values given by keywords (absent: the
  default); their values are not checked, as in the code;
* running times, sizes of caches, the share of parallel work and the names of map and engine are not modelled; what `report` prints is a record of numbers;
* numbers are rational; the quotient of floats is a parameter;
* what an exception leaves behind is not modelled.
-/

set_option autoImplicit false

namespace Verif.Bench
open Verif.Spec Verif.ATree

abbrev Text := List Char

/-- Exceptions; `inner` comes from `simulate`, `verify` or `contains`. -/
inductive Err | typeError | indexError | assertion | attributeError | zeroDivision | inner (e : String)
deriving DecidableEq, Repr

/-- `ScenarioConfig` (28-49) -/
structure SConf (W : Type) where
  incremental : Bool
  parallel : Bool
  tryLocal : Bool
  others : Dict String W
deriving DecidableEq

/-- the fields of `ScenarioConfig` (30-48) besides the three above -/
def fields : List String :=
  ["unsafe_continue", "init_seg_length", "reachability_method", "parallel_sim_ahead", "parallel_ver_ahead", "print_level", "pca"]

/-- `ScenarioConfig(incremental=…, parallel=…, try_local=…, **kw)` (437-439, 546-548; in the second place `try_local` is left out, so it is `False`): a keyword
given twice or unknown is a `TypeError`. (`try_local` in `kw` is rejected by the first call, before the second one.) -/
def sconf {W : Type} (i l t : Bool) (kw : Dict String W) : Except Err (SConf W) :=
  if kw.all (fun p => fields.contains p.1) then .ok ⟨i, l, t, kw⟩ else .error .typeError

/-- `ExprConfig` (423-431), with `kw` (444) -/
structure ExpConf (W : Type) where
  config : SConf W
  args : Text
  rest : List Text
  compare : Bool
  plot : Bool
  dump : Bool
  sim : Bool
  kw : Dict String W
deriving DecidableEq

/-- `arg.replace(o, "")` -/
def erase (arg : Text) (o : Char) : Text := arg.filter (fun c => c != o)

/-- `ExprConfig.from_arg` (433-445) -/
def fromArg {W : Type} (a : List Text) (kw : Dict String W) : Except Err (ExpConf W) := do
  let arg := match a with
    | _ :: x :: _ => x
    | _ => []
  let config ← sconf (arg.contains 'i') (arg.contains 'l') (arg.contains 't') kw
  .ok ⟨config, ['c', 'i', 'l', 'p', 'd', 'v'].foldl erase arg, a.drop 2, arg.contains 'c', arg.contains 'p', arg.contains 'd', !arg.contains 'v', kw⟩

/-- What `Benchmark` uses of scenarios (type `S`) and their analyses. -/
structure World (S W : Type) where
  /-- `Scenario(config)` (51-66) -/
  fresh : SConf W → S
  /-- `update_config` (75-78) -/
  configure : SConf W → S → S
  /-- `simulate(*a)`, with keyword arguments -/
  simulate : S → List ℚ → Dict String W → Except String (RTree CNode × S)
  /-- `verify(*a, **kw)` -/
  verify : S → List ℚ → Dict String W → Except String (RTree CNode × S)
  /-- `len(agent_dict)` -/
  agents : S → Nat
  /-- `simulator.cache_hits`: hits and misses -/
  simHits : S → Nat × Nat
  /-- `verifier.tube_cache_hits` -/
  tubeHits : S → Nat × Nat
  /-- `verifier.trans_cache_hits` -/
  transHits : S → Nat × Nat
  /-- quotient of floats -/
  fdiv : ℚ → ℚ → ℚ
  /-- roundings in `contains` -/
  rnd : Rnd
  /-- `_EPSILON` -/
  eps : ℚ

/-- The numbers that `run` leaves in the object. -/
structure Numbers where
  agents : Nat
  nodes : Nat
  leaves : Nat
  timesteps : ℤ
  hits : Nat × Nat
deriving DecidableEq

/-- A `Benchmark` object: configuration, scenario, and the numbers of the last run. -/
structure State (S W : Type) where
  conf : ExpConf W
  scn : S
  nums : Option Numbers

/-- `Benchmark.__init__` (475-484) -/
def init {S W : Type} (w : World S W) (argv : List Text) (kw : Dict String W) : Except Err (State S W) := do
  let e ← fromArg argv kw
  .ok ⟨e, w.fresh e.config, none⟩

/-- `int(x)`: towards zero -/
def trunc (x : ℚ) : ℤ := if 0 ≤ x then ⌊x⌋ else ⌈x⌉

/-- an exception of an analysis -/
def lift {α : Type} : Except String α → Except Err α
  | .ok x => .ok x
  | .error e => .error (.inner e)

/-- `f(*a)` or `f(*a, **kw)` (487, 493-496) -/
def analyse {S W : Type} (w : World S W) (sim : Bool) (s : S) (a : List ℚ) (kw : Dict String W) : Except Err (RTree CNode × S) :=
  if sim then lift (w.simulate s a []) else lift (w.verify s a kw)

/-- `run` (486-525): positional arguments `a`, keyword arguments `kw` -/
def run {S W : Type} (w : World S W) (b : State S W) (a : List ℚ) (kw : Dict String W) : Except Err (RTree CNode × State S W) :=
  match a with
  | a0 :: a1 :: _ =>
    if a1 = 0 then .error .zeroDivision
    else do
      let steps := trunc (w.fdiv a0 a1)
      let (t, s) ← analyse w b.conf.sim b.scn a kw
      let hits := if b.conf.sim then w.simHits s else ((w.tubeHits s).1 + (w.transHits s).1, (w.tubeHits s).2 + (w.transHits s).2)
      .ok (t, ⟨b.conf, s, some ⟨w.agents s, (allNodes t).length, leaves t, steps, hits⟩⟩)
  | _ => .error .indexError

/-- What `report` prints. -/
structure Printed where
  agents : Nat
  nodes : Nat
  leaves : Nat
  timesteps : ℤ
  /-- hits, misses and hit rate in percent; printed for incremental runs -/
  cache : Option ((Nat × Nat) × ℚ)
deriving DecidableEq

/-- `report` (552-571): before the first run an `AttributeError` -/
def report {S W : Type} (b : State S W) : Except Err Printed :=
  match b.nums with
  | none => .error .attributeError
  | some n =>
    if b.conf.config.incremental then
      if n.hits.1 + n.hits.2 = 0 then .error .zeroDivision
      else .ok ⟨n.agents, n.nodes, n.leaves, n.timesteps, some (n.hits, (n.hits.1 : ℚ) / (n.hits.1 + n.hits.2 : ℕ) * 100)⟩
    else .ok ⟨n.agents, n.nodes, n.leaves, n.timesteps, none⟩

/-- an exception of `contains` -/
def liftC {α : Type} : Except ATree.Err α → Except Err α
  | .ok x => .ok x
  | .error _ => .error (.inner "contains")

/-- `replace_scenario` (544-551): the new scenario is an object, a scenario or a text, which has no `update_config` -/
def replaceScenario {S W : Type} (w : World S W) (b : State S W) (new : S ⊕ Text) : Except Err (State S W) :=
  match b.conf.rest with
  | [] => .error .indexError
  | arg :: _ => do
    let c ← sconf (arg.contains 'i') (arg.contains 'l') false b.conf.kw
    match new with
    | .inl s => .ok ⟨{ b.conf with config := c }, w.configure c s, b.nums⟩
    | .inr _ => .error .attributeError

/-- What `compare_run` prints and returns. -/
structure Compared where
  first : RTree CNode
  second : RTree CNode
  report1 : Printed
  report2 : Printed
  /-- "trace1 contains trace2?" -/
  contains12 : Bool
  /-- "trace2 contains trace1?" -/
  contains21 : Bool

/-- before the second run (531-537): `self.config.rest[1]` is a text -/
def between {S W : Type} (w : World S W) (b : State S W) : Except Err (State S W) :=
  match b.conf.rest with
  | [] => .ok b
  | [_] => .error .indexError
  | _ :: s :: _ => replaceScenario w b (.inr s)

/-- `compare_run` (527-542) -/
def compareRun {S W : Type} (w : World S W) (b : State S W) (a : List ℚ) (kw : Dict String W) : Except Err (Compared × State S W) :=
  if b.conf.compare then do
    let (t1, b1) ← run w b a kw
    let r1 ← report b1
    let b1' ← between w b1
    let (t2, b2) ← run w b1' a kw
    let r2 ← report b2
    let c12 ← liftC (contains w.rnd true w.eps t1 t2)
    let c21 ← liftC (contains w.rnd true w.eps t2 t1)
    .ok (⟨t1, t2, r1, r2, c12, c21⟩, b2)
  else .error .assertion

end Verif.Bench
