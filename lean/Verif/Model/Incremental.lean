import Verif.Model.Verifier
import Mathlib.Algebra.Order.Field.Basic

/-!
`verse/analysis/incremental.py`: `TubeCache` (263-303), `SimTraceCache` (167-260), `ReachTubeCache` (306-378), `to_simulate` (51-98), and the
code that uses them: `Verifier.check_cache_bloated_tube` (verifier.py:238-295), `Simulator.proc_result` (simulator.py:366-393),
`Simulator.simulate_one` (simulator.py:211-224) and `Simulator.get_transition_simulate` (simulator.py:643-663).

Simplifications
* An `IntervalTree` (third party) is the list of its intervals; `tree[b:e] = d` adds an interval and raises `ValueError` if `b >= e`.
  Adding an interval that is present already (same bounds and equal data) changes no answer. Queries return a set, so the order of the
  answers is a parameter `ord`.
* A key `(agent_id,) + tuple(mode)` is the pair of agent and mode.
* `TubeCache`: a cached array can be changed in place by `res_tube[...] = ...` (it can only grow); the model does not do this.
* `SimTraceCache`: entries are mutable objects, so leaves hold the number of an entry and the entries are in a list.
* `copy.deepcopy(segment)`: paths of different transitions are taken to be different objects.
* what an exception leaves behind is not modelled: exceptions end the analysis.
-/

set_option autoImplicit false

namespace Verif.Inc

open Verif.Rect (Box combineRect)

/-- An `IntervalTree` whose data are trees or entries. -/
inductive ITree (K E : Type) where
  | leaf (e : E)
  | node (l : List (K × K × ITree K E))

variable {K E : Type}

/-- The loops that add an entry: incremental.py:186-200, 277-286 and 325-339. `ivs` are the intervals, one per dimension. -/
def insertAt [LinearOrder K] : List (K × K) → E → ITree K E → Except String (ITree K E)
  | [], _, _ => .error "Exception"
  | _ :: _, _, .leaf _ => .error "TypeError"
  | [iv], e, .node l => if iv.1 < iv.2 then .ok (.node (l ++ [(iv.1, iv.2, .leaf e)])) else .error "ValueError"
  | iv :: jv :: ivs, e, .node l =>
    if iv.1 < iv.2 then (insertAt (jv :: ivs) e (.node [])).map (fun t => .node (l ++ [(iv.1, iv.2, t)])) else .error "ValueError"

/-- Order in which the answers of a query are enumerated. -/
abbrev Order (K E : Type) := List (K × K × ITree K E) → List (K × K × ITree K E)

/-- Key of a cache entry: agent and mode. -/
abbrev Key := String × List String

/-- `self.cache` -/
abbrev Cache (K E : Type) := Dict Key (ITree K E)

/-- `tree = self.cache[key]` with `defaultdict(IntervalTree)`, then the loop. -/
def addEntry [LinearOrder K] (c : Cache K E) (key : Key) (ivs : List (K × K)) (e : E) : Except String (Cache K E) :=
  (insertAt ivs e ((Dict.get? c key).getD (.node []))).map (Dict.set c key)

/-- `min(l, key=...)`, the first of the smallest; `b` is the best so far. -/
def firstMin {α κ : Type} [LT κ] [DecidableLT κ] (key : α → κ) (b : α) (l : List α) : α :=
  l.foldl (fun b x => if key x < key b then x else b) b

section
variable [Field K] [LinearOrder K]

/-- `list(map(list, zip(*init)))`, incremental.py:275, 295 and 324. -/
def columns (b : Box K) : List (K × K) := b.1.zip b.2

/-- Lines 277-284: the interval stored for a dimension. -/
def stored (eps : K) (c : K × K) : K × K := (c.1, c.2 + eps)

/-- `tree[low : high + _EPSILON]` filtered by `t.begin <= low and high <= t.end`, incremental.py:296-298 and 345-347. -/
def fits (eps : K) (c : K × K) (t : K × K × ITree K E) : Bool :=
  decide (c.1 < c.2 + eps) && (decide (t.1 < c.2 + eps) && decide (c.1 < t.2.1)) && (decide (t.1 ≤ c.1) && decide (c.2 ≤ t.2.1))

/-- `TubeCache.add_tube`, incremental.py:267-286. -/
def addTube (eps : K) (c : Cache K E) (agent : String) (mode : List String) (init : Box K) (tube : E) : Except String (Cache K E) :=
  addEntry c (agent, mode) ((columns init).map (stored eps)) tube

/-- The loop of `TubeCache.check_hit`, incremental.py:295-303. -/
def tubeLoop (eps : K) (ord : Order K E) : List (K × K) → ITree K E → Except String (Option E)
  | [], .leaf e => .ok (some e)
  | [], .node _ => .error "AssertionError"
  | _ :: _, .leaf _ => .error "TypeError"
  | c :: cs, .node l =>
    match (ord l).filter (fits eps c) with
    | [] => .ok none
    | t :: ts => tubeLoop eps ord cs (firstMin (fun e => c.1 - e.1 + e.2.1 - c.2) t ts).2.2

/-- `TubeCache.check_hit`, incremental.py:288-303. -/
def tubeHit (eps : K) (ord : Order K E) (c : Cache K E) (agent : String) (mode : List String) (init : Box K) : Except String (Option E) :=
  match Dict.get? c (agent, mode) with
  | none => .ok none
  | some t => tubeLoop eps ord (columns init) t

/-- `TubeCache.add_tube` for each entry of `cache_tube_updates` (verifier.py:755-756), over the whole life of a cache. -/
def tubeHistory (eps : K) (c : Cache K E) (adds : List (String × List String × Box K × E)) : Except String (Cache K E) :=
  adds.foldlM (fun c a => addTube eps c a.1 a.2.1 a.2.2.1 a.2.2.2) c

/-- `Verifier.check_cache_bloated_tube` (verifier.py:238-295) followed by `calculate_full_bloated_tube_simple` (verifier.py:298-377) with
`incremental`, when the initial rectangles form one group (at most `combine_seg_length` rectangles): the cached tube if there is one, otherwise
a computed tube, which is also recorded for the cache. -/
def cachedTube (eps : K) (ord : Order K (Ver.Tube K)) (c : Cache K (Ver.Tube K)) (agent : String) (mode : List String)
    (bloat : Box K → ℚ → Ver.Tube K) (inits : List (Box K)) (horizon : ℚ) :
    Except String (Ver.Tube K × List (String × List String × Box K × Ver.Tube K)) :=
  (combineRect inits).bind fun r =>
    (tubeHit eps ord c agent mode r).map fun
      | some t => (t, [])
      | none => (bloat r horizon, [(agent, mode, r, bloat r horizon)])

end

/-! ### Simulation -/

/-- `ModePath` (parser.py:298-310) as compared here: code objects of guard and value, their expressions, the variable. -/
structure IPath (C A : Type) where
  var      : String
  cond     : C
  condVeri : A
  val      : C
  valVeri  : A
deriving DecidableEq

/-- `ModePath.__eq__`, parser.py:306-310. -/
def IPath.same {C A : Type} [DecidableEq C] (p q : IPath C A) : Bool := decide (p.cond = q.cond) && decide (p.val = q.val)

/-- `CachedTransition`, incremental.py:16-22. -/
structure CTrans (K C A : Type) where
  inits : Dict String (List K)
  idx   : Nat
  disc  : List String
  cont  : List K
  paths : List (IPath C A)
deriving DecidableEq

/-- `CachedSegment`, incremental.py:25-30 (a segment with failed asserts is never stored: simulator.py:270-273). -/
structure CSeg (K T C A : Type) where
  trace : T
  trans : List (CTrans K C A)
  nodes : List (Nat × Nat)
deriving DecidableEq

/-- `SimTraceCache`: the trees and the entries they refer to. -/
structure SimCache (K T C A : Type) where
  trees : Cache K Nat
  segs  : List (CSeg K T C A)

/-- `set(a.keys()) == set(b.keys())` -/
def sameKeys {V W : Type} (a : Dict String V) (b : Dict String W) : Bool :=
  a.keys.all (fun k => b.keys.contains k) && b.keys.all (fun k => a.keys.contains k)

section
variable {T C A : Type} [Field K] [LinearOrder K]

/-- `sim_trans_suit`, incremental.py:136-138. -/
def simTransSuit (eps : K) (a b : Dict String (List K)) : Except String Bool :=
  if sameKeys a b then
    .ok (a.all (fun kv => ((kv.2.zip ((Dict.get? b kv.1).getD [])).all (fun p => decide (|p.1 - p.2| < eps)))))
  else .error "AssertionError"

/-- The recursion of `SimTraceCache.query_cont` (incremental.py:230-241) and `ReachTubeCache.query_cont` (341-355). `cs` has one test per
dimension: which intervals of `tree[...]` are followed. -/
def queryAll (ord : Order K E) : List (K × K × ITree K E → Bool) → ITree K E → Except String (List E)
  | _, .leaf _ => .error "AssertionError"
  | [], .node _ => .error "IndexError"
  | [c], .node l => ((ord l).filter c).mapM (fun t => match t.2.2 with
      | .leaf e => .ok e
      | .node _ => .error "AssertionError")
  | c :: d :: cs, .node l => (((ord l).filter c).mapM (fun t => queryAll ord (d :: cs) t.2.2)).map List.flatten

/-- `tree[x]`: the intervals that contain the point. -/
def atPoint (x : K) (t : K × K × ITree K E) : Bool := decide (t.1 ≤ x) && decide (x < t.2.1)

/-- Lines 357-370 of incremental.py, `ReachTubeCache.check_hit`: the entries among which one is chosen. -/
def reachEntries (eps : K) (ord : Order K E) (c : Cache K E) (agent : String) (mode : List String) (init : Box K) : Except String (List E) :=
  match Dict.get? c (agent, mode) with
  | none => .ok []
  | some t => queryAll ord ((columns init).map (fits eps)) t

/-- `num_trans_suit`, incremental.py:254-255. -/
def numSuit (eps : K) (inits : Dict String (List K)) (s : CSeg K T C A) : Except String Nat :=
  (s.trans.mapM (fun t => simTransSuit eps t.inits inits)).map (fun bs => bs.countP id)

/-- `SimTraceCache.check_hit`, incremental.py:243-260: number of the entry. Sorting by `-num_trans_suit` keeps the order of equal ones. -/
def simHit (eps : K) (ord : Order K Nat) (c : SimCache K T C A) (agent : String) (mode : List String) (init : List K)
    (inits : Dict String (List K)) : Except String (Option Nat) :=
  match Dict.get? c.trees (agent, mode) with
  | none => .ok none
  | some t =>
    (queryAll ord (init.map atPoint) t).bind fun ids =>
      (ids.mapM (fun i => match c.segs[i]? with
        | some (s : CSeg K T C A) => (numSuit eps inits s).map (fun n => (i, -(n : Int)))
        | none => .error "AssertionError")).map fun
          | [] => none
          | e :: es => some (firstMin (fun (p : Nat × Int) => p.2) e es).1

/-- An element of `cache_updates` (simulator.py:279-290, 300-320) with what `proc_result` reads of the node. -/
structure Update (K T C A : Type) where
  new    : Bool
  agent  : String
  mode   : List String
  init   : List K
  inits  : Dict String (List K)
  /-- `agent_id in transit_agents` -/
  moved  : Bool
  trace  : T
  trans  : List (List String × List K × List (IPath C A))
  idx    : Nat
  node   : Nat × Nat

/-- `convert_sim_trans`, incremental.py:101-110. -/
def Update.cached (u : Update K T C A) : List (CTrans K C A) :=
  if u.moved then u.trans.map (fun t => ⟨u.inits, u.idx, t.1, t.2.1, t.2.2⟩) else []

/-- `SimTraceCache.add_segment`, incremental.py:171-200. -/
def addSegment (eps : K) (c : SimCache K T C A) (u : Update K T C A) : Except String (SimCache K T C A) :=
  (addEntry c.trees (u.agent, u.mode) (u.init.map (fun v => (v - eps, v + eps))) c.segs.length).map
    (fun t => ⟨t, c.segs ++ [⟨u.trace, u.cached, [u.node]⟩]⟩)

variable [DecidableEq C]

/-- The loop body of `Simulator.proc_result`, simulator.py:375-393. -/
def procUpdate (eps : K) (ord : Order K Nat) (c : SimCache K T C A) (u : Update K T C A) : Except String (SimCache K T C A) :=
  (simHit eps ord c u.agent u.mode u.init u.inits).bind fun hit =>
    if u.new && hit.isNone then addSegment eps c u
    else match hit with
      | none => .error "AssertionError"
      | some i => .ok { c with segs := c.segs.modify i (fun s =>
          { s with trans := dedupBy (fun t => (t.disc, t.cont, t.inits)) (s.trans ++ u.cached), nodes := u.node :: s.nodes }) }

/-- All the updates in the life of a cache. -/
def simHistory (eps : K) (ord : Order K Nat) (c : SimCache K T C A) (us : List (Update K T C A)) : Except String (SimCache K T C A) :=
  us.foldlM (procUpdate eps ord) c

/-- Lines 653-663 of simulator.py: the cached transitions that are reused, with the agent. -/
def reusedTrans (eps : K) (cache : Dict String (CSeg K T C A)) (inits : Dict String (List K)) : Except String (List (String × CTrans K C A)) :=
  ((cache.flatMap (fun a => a.2.trans.map (fun t => (a.1, t)))).mapM
    (fun t => (simTransSuit eps t.2.inits inits).map (fun b => (t, b)))).map
      (fun l => (l.filter (fun p => p.2)).map Prod.fst)

end

/-- Lines 212-224 of simulator.py: the trace of an agent of a node. A trace is the list of its rows, time first; `simulate` is `TC_simulate`. -/
def nodeTrace {X C A : Type} (cached : Option (CSeg K (List (ℚ × X)) C A)) (simulate : ℚ → List (ℚ × X)) (start horizon : ℚ) :
    List (ℚ × X) :=
  match cached with
  | some s => s.trace
  | none => (simulate (horizon - start)).map (fun r => (r.1 + start, r.2))

/-! ### `to_simulate` -/

section
variable {T C A : Type} [DecidableEq C] [DecidableEq A]

/-- What is compared of a decision logic. -/
structure ILogic (C A : Type) where
  args  : List String
  paths : List (IPath C A)

/-- `group_by_var`, incremental.py:69-73. -/
def groupByVar (ps : List (IPath C A)) : Dict String (List (IPath C A)) :=
  ps.foldl (fun d p => Dict.set d p.var ((Dict.get? d p.var).getD [] ++ [p])) []

/-- Paths that were removed, added, and whose value changed. -/
structure PDiff (C A : Type) where
  removed : List (IPath C A)
  added   : List (IPath C A)
  changed : List (IPath C A)

/-- Lines 80-87: `zip_longest`. `None.cond_veri` raises `AttributeError`. -/
def diffPaths : List (IPath C A) → List (IPath C A) → Except String (PDiff C A)
  | [], [] => .ok ⟨[], [], []⟩
  | [], _ :: _ => .error "AttributeError"
  | o :: os, [] => (diffPaths os []).map (fun d => { d with removed := o :: d.removed })
  | o :: os, n :: ns =>
    (diffPaths os ns).map (fun d =>
      if o.condVeri ≠ n.condVeri then { d with removed := o :: d.removed, added := n :: d.added }
      else if o.valVeri ≠ n.valVeri then { d with changed := n :: d.changed }
      else d)

/-- Lines 75-87 for one agent. -/
def diffLogic (old new : ILogic C A) : Except String (PDiff C A) :=
  let og := groupByVar old.paths
  let ng := groupByVar new.paths
  if sameKeys og ng then
    (og.mapM (fun vp => diffPaths vp.2 ((Dict.get? ng vp.1).getD []))).map
      (fun ds => ⟨ds.flatMap PDiff.removed, ds.flatMap PDiff.added, ds.flatMap PDiff.changed⟩)
  else .error "NotImplementedError"

/-- Lines 92-94 for one path. -/
def newVal (changed : List (IPath C A)) (p : IPath C A) : IPath C A :=
  changed.foldl (fun p r => if p.cond = r.cond then { p with val := r.val } else p) p

/-- Lines 59-97 for one agent: what is kept of its segment, and the paths to simulate. -/
def reviewSegment (old new : Dict String (ILogic C A)) (id : String) (s : CSeg K T C A) :
    Except String (Option (CSeg K T C A) × List (String × IPath C A)) :=
  if s.trans.isEmpty then .ok (some s, [])
  else match Dict.get? old id, Dict.get? new id with
    | some o, some n =>
      if o.args = n.args then
        (diffLogic o n).map (fun d =>
          (if s.trans.any (fun t => t.paths.any (fun p => d.removed.any (fun r => p.same r))) then none
           else some { s with trans := s.trans.map (fun t => { t with paths := t.paths.map (newVal d.changed) }) },
           d.added.map (fun p => (id, p))))
      else .error "AssertionError"
    | _, _ => .error "KeyError"

/-- `to_simulate`, incremental.py:51-98. -/
def toSimulate (old new : Dict String (ILogic C A)) (cached : Dict String (CSeg K T C A)) :
    Except String (Dict String (CSeg K T C A) × List (String × IPath C A)) :=
  if sameKeys old new then
    (cached.mapM (fun a => (reviewSegment old new a.1 a.2).map (fun r => (a.1, r)))).map (fun rs =>
      (rs.filterMap (fun r => r.2.1.map (fun s => (r.1, s))), rs.flatMap (fun r => r.2.2)))
  else .error "AssertionError"

/-- Lines 643-647 of simulator.py: the paths whose guards are evaluated, for the cache and the paths that `to_simulate` returned. -/
def pathsToCheck (agents : Dict String (ILogic C A)) (cache : Dict String (CSeg K T C A)) (paths : List (String × IPath C A)) :
    List (String × IPath C A) :=
  if cache.isEmpty then agents.flatMap (fun a => a.2.paths.map (fun p => (a.1, p))) else paths

end

end Verif.Inc
