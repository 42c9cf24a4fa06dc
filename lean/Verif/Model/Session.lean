import Verif.Model.Scenario
import Verif.Model.Utils

/-!
The calls that start an analysis: `Scenario.simulate`, `simulate_multi`, `simulate_simple`, `verify` (verse/scenario/scenario.py:206-373), `cleanup_cache` (70-73),
`sample_rect` (verse/utils/utils.py:416-422) and `AnalysisTreeNode.root_from_inits` (verse/analysis/analysis_tree.py:122-146).

The simulator and the verifier are parameters here (they have their own models); a call that raises ends the session (simplification). Printing and `ray.init` are left out.
-/

set_option autoImplicit false

namespace Verif.Scn

/-- A mode or a static parameter as given by the user: a string, or a member of an `Enum` class. -/
inductive MVal
  | str (s : String)
  | enum (name : String)
  deriving DecidableEq

/-- `elem if isinstance(elem, str) else elem.name`, scenario.py:241 -/
def modeName : MVal → String
  | .str s => s
  | .enum n => n

/-- `elem.name`, scenario.py:244: strings have no `name`. -/
def staticName : MVal → Except String String
  | .str _ => .error "AttributeError"
  | .enum n => .ok n

/-- numpy's global random generator: the state after `np.random.seed(s)`, and `n` numbers in `[0, 1)`. -/
structure Rng (G K : Type) where
  seeded : Nat → G
  draw   : Nat → G → List K × G

variable {G K : Type}

/-- Lines 419-420 of utils.py: `np.random.seed` accepts numbers below `2**32`. -/
def reseed (R : Rng G K) (g : G) : Option Int → Except String G
  | none => .ok g
  | some s => if 0 ≤ s ∧ s < 4294967296 then .ok (R.seeded s.toNat) else .error "ValueError"

/-- `sample_rect`, utils.py:416-422, on the rows of a rectangle. (Simplification: two corners of different lengths are refused; numpy would accept a corner of length 1.) -/
def sample [Field K] (R : Rng G K) (seed : Option Int) (rows : List (List K)) (g : G) : Except String (List K × G) :=
  (reseed R g seed).bind fun g =>
    match rows with
    | lo :: hi :: _ => if lo.length = hi.length then .ok (Utl.sampleRect lo hi (R.draw lo.length g).1, (R.draw lo.length g).2) else .error "ValueError"
    | _ => .error "IndexError"

/-- The root node of a tree: `root_from_inits`. Its trace is empty, its height, start time and id are 0. -/
structure Root (K I : Type) where
  init   : Dict String I
  mode   : Dict String (List String)
  static : Dict String (List String)
  uncertain : Dict String (List MVal)
  agents : Dict String (Agent MVal)

/-- `{aid: f(x) for aid, x in d.items()}` -/
def mapDict {A B : Type} (f : A → Except String B) : Dict String A → Except String (Dict String B)
  | [] => .ok []
  | (k, a) :: d => (f a).bind fun b => (mapDict f d).map fun r => (k, b) :: r

/-- The same with a random generator. -/
def mapDictG {A B : Type} (f : A → G → Except String (B × G)) : Dict String A → G → Except String (Dict String B × G)
  | [], g => .ok ([], g)
  | (k, a) :: d, g => (f a g).bind fun b => (mapDictG f d b.2).map fun r => ((k, b.1) :: r.1, r.2)

/-- The list behind a reference. -/
def rowsOf (h : Heap K) (m : Nat) : Except String (List (List K)) :=
  match deref h m with
  | some rows => .ok rows
  | none => .error "dangling"

/-- The root for initial values `init`: scenario.py:238-249 and 341-358. -/
def mkRoot {I : Type} (s : Scen MVal) (init : Dict String I) : Except String (Root K I) :=
  (mapDict (fun l => l.mapM staticName) s.static).map fun st =>
    { init := init, mode := s.mode.map (fun kv => (kv.1, kv.2.map modeName)), static := st, uncertain := s.uncertain, agents := s.agents }

/-- One round of the loop of `_get_init_from_agent`, scenario.py:207-220. -/
def getInitOne (st : St K MVal) (id : String) : Except String (St K MVal) :=
  if st.scen.init.mem id then .ok st else
    match Dict.get? st.scen.agents id with
    | none => .ok st
    | some a => match a.initCont, a.initDisc with
      | some m, some d => setInitSingle st id m d a.static a.uncertain
      | _, _ => .ok st

/-- `_get_init_from_agent`, scenario.py:206-220. -/
def getInit (st : St K MVal) : Except String (St K MVal) := st.scen.agents.keys.foldlM getInitOne st

/-- A scenario object: its data, the trees of earlier runs, the random generator, and the simulator (or verifier) with its caches. -/
structure Session (G K M Tree : Type) where
  st   : St K MVal
  past : List Tree
  rng  : G
  tool : M

variable {M Tree Args : Type}

/-- `simulator.simulate(root, …, run_num, past_runs)`: the tree, and the simulator afterwards. -/
abbrev Tool (K I M Tree Args : Type) := M → Root K I → Args → Nat → List Tree → Except String (Tree × M)

/-- scenario.py:250-261: the tool is run with the number of the run and the earlier trees, and the new tree is recorded. -/
def runTool {I : Type} (tool : Tool K I M Tree Args) (s : Session G K M Tree) (args : Args) (root : Root K I) : Except String (Tree × Session G K M Tree) :=
  (tool s.tool root args s.past.length s.past).map fun r => (r.1, { s with past := s.past ++ [r.1], tool := r.2 })

/-- `Scenario.simulate`, scenario.py:217-261; also `simulate_simple`, 303-335, with another tool. -/
def simulate [Field K] (R : Rng G K) (tool : Tool K (List K) M Tree Args) (s : Session G K M Tree) (args : Args) (seed : Option Int) :
    Except String (Tree × Session G K M Tree) :=
  (getInit s.st).bind fun st =>
    if checkInit st.scen then
      (mapDictG (fun m g => (rowsOf st.heap m).bind fun rows => sample R seed rows g) st.scen.init s.rng).bind fun pts =>
        (mkRoot st.scen pts.1).bind fun root => runTool tool { s with st := st, rng := pts.2 } args root
    else .error "AssertionError"

/-- The loop of lines 273-274: simulations number `i`, `i + 1`, … -/
def multiLoop [Field K] (R : Rng G K) (tool : Tool K (List K) M Tree Args) (args : Args) (seed : Option Int) :
    Nat → Nat → Session G K M Tree → Except String (List Tree × Session G K M Tree)
  | 0, _, s => .ok ([], s)
  | n + 1, i, s => (simulate R tool s args (seed.map (· + (i : Int)))).bind fun r => (multiLoop R tool args seed n (i + 1) r.2).map fun q => (r.1 :: q.1, q.2)

/-- The loop of lines 276-300: one simulation for each of the given initial states. -/
def givenLoop (tool : Tool K (List K) M Tree Args) (args : Args) : List (Dict String (List K)) → Session G K M Tree → Except String (List Tree × Session G K M Tree)
  | [], s => .ok ([], s)
  | init :: is, s => (mkRoot s.st.scen init).bind fun root => (runTool tool s args root).bind fun r =>
      (givenLoop tool args is r.2).map fun q => (r.1 :: q.1, q.2)

/-- `Scenario.simulate_multi`, scenario.py:263-301. -/
def simulateMulti [Field K] (R : Rng G K) (tool : Tool K (List K) M Tree Args) (s : Session G K M Tree) (args : Args)
    (inits : Option (List (Dict String (List K)))) (seed : Option Int) (n : Nat) : Except String (List Tree × Session G K M Tree) :=
  (getInit s.st).bind fun st =>
    if checkInit st.scen then
      match inits with
      | none => multiLoop R tool args seed n 0 { s with st := st }
      | some is => givenLoop tool args is { s with st := st }
    else .error "AssertionError"

/-- `Scenario.verify`, scenario.py:337-373: the root has the whole rectangles. `_get_init_from_agent` is not called. -/
def verify (tool : Tool K (List (List (List K))) M Tree Args) (s : Session G K M Tree) (args : Args) : Except String (Tree × Session G K M Tree) :=
  if checkInit s.st.scen then
    (mapDict (fun m => (rowsOf s.st.heap m).map fun rows => [rows]) s.st.scen.init).bind fun init =>
      (mkRoot s.st.scen init).bind fun root => runTool tool s args root
  else .error "AssertionError"

/-- `cleanup_cache`, scenario.py:70-73: no earlier runs, and a new tool. -/
def cleanup (fresh : M) (s : Session G K M Tree) : Session G K M Tree := { s with past := [], tool := fresh }

end Verif.Scn
