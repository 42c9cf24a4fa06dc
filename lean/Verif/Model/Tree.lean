import Verif.Spec.Tree

/-!
`verse/analysis/analysis_tree.py`: `AnalysisTree` (252-560) and `first_transitions` (562-571).

Simplifications
* a tree of `AnalysisTreeNode` objects is an `RTree` of node contents (the type is shared with the specification);
* JSON: `json.dump`/`json.load` are inverse on the values that occur, except that `int` keys become `str`; `str` of an
  `int` is injective, so keys stay integers here. `tolist`/`np.array` are inverse to each other.
* plotting (`visualize`, `visualize_dot`) is not modelled.
-/

set_option autoImplicit false

namespace Verif.ATree
open Verif.Spec

variable {D : Type}

mutual
/-- number of nodes (used for termination only) -/
def size : RTree D → Nat
  | .node _ ts => 1 + sizeL ts
def sizeL : List (RTree D) → Nat
  | [] => 0
  | t :: ts => size t + sizeL ts
end

theorem sizeL_append (a b : List (RTree D)) : sizeL (a ++ b) = sizeL a + sizeL b := by
  induction a with
  | nil => simp [sizeL]
  | cons t a ih => simp [sizeL, ih, Nat.add_assoc]

theorem size_eq (t : RTree D) : size t = 1 + sizeL t.kids := by
  cases t; simp [size, RTree.kids]

/-- the `while queue` loop of `_get_all_nodes` (270-281): pop the front, append the children at the back -/
def bfs : List (RTree D) → List (RTree D)
  | [] => []
  | t :: q => t :: bfs (q ++ t.kids)
termination_by q => sizeL q
decreasing_by rw [sizeL_append]; simp only [sizeL]; rw [size_eq t]; omega

/-- `AnalysisTree(root).nodes` (265-281) -/
def allNodes (root : RTree D) : List (RTree D) := bfs [root]

/-- `leaves` (532-538) -/
def leaves (root : RTree D) : Nat :=
  (allNodes root).foldl (fun count n => if n.kids.length = 0 then count + 1 else count) 0

mutual
/-- `collect_leaf_nodes` (547-552): `leafs` is the list appended to -/
def collectLeaves : RTree D → List (RTree D) → List (RTree D)
  | .node d ts, leafs => collectLeavesL ts (if ts.length = 0 then leafs ++ [.node d ts] else leafs)
def collectLeavesL : List (RTree D) → List (RTree D) → List (RTree D)
  | [], leafs => leafs
  | t :: ts, leafs => collectLeavesL ts (collectLeaves t leafs)
end

/-- `get_leaf_nodes` (541-544) -/
def leafNodes (root : RTree D) : List (RTree D) := collectLeaves root []

mutual
/-- `height` (555-560): `1` without children, else `1 + max(...)` -/
def height : RTree D → Nat
  | .node _ ts => match heights ts with
    | [] => 1
    | h :: hs => 1 + hs.foldl max h
/-- `self.height(x) for x in ts` -/
def heights : List (RTree D) → List Nat
  | [] => []
  | t :: ts => height t :: heights ts
end

/-! ### dump and load -/

/-- Exceptions. -/
inductive Err | keyError | indexError | valueError | assertion | zeroDivision
deriving DecidableEq, Repr

inductive NType | sim | reach
deriving DecidableEq, Repr

/-- `AnalysisTreeNode` (91-119) without `child`. `J` are JSON values; `agent` maps an id to the agent object, of which only
the type name is used here. -/
structure Node (J : Type) where
  id        : Int
  agent     : Dict String String
  init      : J
  mode      : J
  static    : J
  uncertain : J
  hits      : J
  height    : Nat
  start     : ℚ
  trace     : Dict String J
  ntype     : NType
  ndigits   : Nat
deriving DecidableEq

/-- The dictionary built by `_to_dict` (173-199). -/
structure NodeDict (J : Type) where
  node   : Node J
  parent : Option Int
  child  : List Int
deriving DecidableEq

variable {J : Type}

/-- `_to_dict` (173-199) -/
def toDict (n : Node J) : NodeDict J := ⟨n, none, []⟩

/-- the inner `for child_node in parent_node.child` of `dump` (291-296): `none` is `KeyError` at `res_dict[parent_node.id]` -/
def dumpKids (p : Int) : List (RTree (Node J)) → Dict Int (NodeDict J) → Option (Dict Int (NodeDict J))
  | [], d => some d
  | c :: cs, d =>
    let d := Dict.set d c.label.id { toDict c.label with parent := some p }
    match Dict.get? d p with
    | none => none
    | some e => dumpKids p cs (Dict.set d p { e with child := e.child ++ [c.label.id] })

/-- the `while queue` loop of `dump` (288-297) -/
def dumpLoop : List (RTree (Node J)) → Dict Int (NodeDict J) → Option (Dict Int (NodeDict J))
  | [], d => some d
  | p :: q, d => match dumpKids p.label.id p.kids d with
    | none => none
    | some d => dumpLoop (q ++ p.kids) d
termination_by q => sizeL q
decreasing_by rw [sizeL_append]; simp only [sizeL]; rw [size_eq p]; omega

/-- `dump` (283-299): the dictionary written to the file. -/
def dump (root : RTree (Node J)) : Option (Dict Int (NodeDict J)) :=
  dumpLoop [root] [(root.label.id, toDict root.label)]

/-- `round(start_time, ndigits)` of `__init__` (113) applied by `_from_dict`. -/
structure Rounding where
  round : Nat → ℚ → ℚ

/-- `_from_dict` (226-246). For simulation traces `data["trace"][aid]` is read for every agent. -/
def fromDict (R : Rounding) (e : NodeDict J) : Except Err (Node J) :=
  match e.node.ntype with
  | .reach => .ok { e.node with start := R.round e.node.ndigits e.node.start }
  | .sim => (e.node.agent.mapM (fun (a : String × String) => match Dict.get? e.node.trace a.1 with
      | some v => Except.ok (a.1, v)
      | none => Except.error Err.keyError)).map (fun tr =>
        { e.node with start := R.round e.node.ndigits e.node.start, trace := tr })

/-- Objects created by `load`: contents and references of the children. -/
abbrev Heap (J : Type) := List (Node J × List Nat)

/-- the inner loop of `load` (311-315) for the parent at heap position `p` -/
def loadKids (R : Rounding) (data : Dict Int (NodeDict J)) (p : Nat) :
    List Int → Heap J → List (NodeDict J × Nat) → Except Err (Heap J × List (NodeDict J × Nat))
  | [], h, q => .ok (h, q)
  | i :: is, h, q => match Dict.get? data i with
    | none => .error .keyError
    | some e => match fromDict R e with
      | .error x => .error x
      | .ok n =>
        let h' := h ++ [(n, [])]
        loadKids R data p is (h'.modify p (fun x => (x.1, x.2 ++ [h.length]))) (q ++ [(e, h.length)])

/-- the `while queue` loop of `load` (309-315); `none`: fuel exhausted -/
def loadLoop (R : Rounding) (data : Dict Int (NodeDict J)) : Nat → Heap J → List (NodeDict J × Nat) → Option (Except Err (Heap J))
  | _, h, [] => some (.ok h)
  | 0, _, _ :: _ => none
  | fuel + 1, h, (e, p) :: q => match loadKids R data p e.child h q with
    | .error x => some (.error x)
    | .ok (h, q) => loadLoop R data fuel h q

/-- `load` (301-316): the heap; the root is at position 0. -/
def load (R : Rounding) (data : Dict Int (NodeDict J)) (fuel : Nat) : Option (Except Err (Heap J)) :=
  match Dict.get? data 0 with
  | none => some (.error .keyError)
  | some e => match fromDict R e with
    | .error x => some (.error x)
    | .ok n => loadLoop R data fuel [(n, [])] [(e, 0)]

/-! ### first_transitions -/

/-- What `first_transitions` reads of a node. -/
structure FT (M : Type) where
  agents : List String
  mode   : Dict String M
  start  : ℚ

variable {M : Type} [DecidableEq M]

/-- innermost body (568-570); `none` is `KeyError` in `node.mode[aid]` / `child.mode[aid]` -/
def ftAgent (n c : FT M) (d : Dict String ℚ) (aid : String) : Option (Dict String ℚ) :=
  if Dict.mem d aid then some d
  else match Dict.get? n.mode aid, Dict.get? c.mode aid with
    | some m, some m' => some (if m ≠ m' then Dict.set d aid c.start else d)
    | _, _ => none

/-- `first_transitions` (562-571) -/
def firstTransitions (root : RTree (FT M)) : Option (Dict String ℚ) :=
  (allNodes root).foldlM (fun d n => n.kids.foldlM (fun d c => n.label.agents.foldlM (ftAgent n.label c.label) d) d) []

end Verif.ATree
