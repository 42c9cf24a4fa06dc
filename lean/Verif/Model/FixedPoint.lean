import Verif.Model.Tree
import Mathlib.Algebra.Order.Field.Basic

/-!
`verse/utils/fixed_points.py`: `reach_at_fix` (22-83), `contain_all_fix` (86-115), `fixed_points_fix` (117-120).

Simplifications
* a row of a trace is the pair of its time and its values;
* numbers are the elements of an ordered field;
* `reached` is the list of the entries that are not `None` (keys 0, 1, ...): the entry `None` that may remain at the end is skipped by `contain_all_fix`,
  and makes it raise if it is the only one;
* the formulas given to z3 are terms; `Or()` and `And()` are false and true; the solver is a parameter: `true` for the answer `unsat`.
-/

set_option autoImplicit false

namespace Verif.Fix

open Verif.Spec Verif.ATree

/-- A row of a trace: time and values. -/
abbrev Row (K : Type) := K × List K

/-- What is used of an `AnalysisTreeNode`: the keys of `agent`, `mode`, and `trace`. -/
structure FNode (K : Type) where
  agents : List String
  mode   : Dict String (List String)
  trace  : Dict String (List (Row K))

variable {K : Type} [Field K] [LinearOrder K]

/-- `sim_enum[agent]`: numbers of the modes seen so far; the next number is stored at `_index`. -/
abbrev Enum := Dict String Nat

/-- Lines 41-44: number the modes not seen so far. -/
def numberModes (d : Enum) (ms : List String) : Enum :=
  ms.foldl (fun d m => if Dict.mem d m then d else
    Dict.set (Dict.set d m ((Dict.get? d "_index").getD 0)) "_index" ((Dict.get? d "_index").getD 0 + 1)) d

/-- Lines 57-62 and 66-71: strip the time, add the numbers of the modes (all of them are in the dictionary). -/
def withModes (d : Enum) (ms : List String) (r : Row K) : List K := r.2 ++ ms.map (fun m => (((Dict.get? d m).getD 0 : Nat) : K))

/-- `range(0, n, step)` -/
def pyRange (n step : Nat) : List Nat := (List.range n).filter (fun i => decide (i % step = 0))

/-- Lines 51-63: the loop over the rows. -/
def windowLoop (lo hi : K) (rows : List (Row K)) : List Nat → Except String (List (Row K × Row K))
  | [] => .ok []
  | i :: is =>
    match rows[i]?, rows[i + 1]? with
    | some a, some b => if a.1 < lo then windowLoop lo hi rows is else if hi < b.1 then .ok [] else (windowLoop lo hi rows is).map (fun l => (a, b) :: l)
    | _, _ => .error "IndexError"

/-- Lines 49-63: the rectangles of one agent in one node whose times are in the window. -/
def window (lo hi : K) (rows : List (Row K)) : Except String (List (Row K × Row K)) :=
  match rows[0]?, rows[1]? with
  | some a, some b => windowLoop lo hi rows (pyRange (rows.length - 1) (if a.1 = b.1 then 1 else 2))
  | _, _ => .error "IndexError"

/-- Lines 65-71: the last rectangle, if it ends at the horizon. -/
def lastRect (T : K) (rows : List (Row K)) : Except String (List (Row K × Row K)) :=
  match pyIdx rows (-1) with
  | none => .error "IndexError"
  | some b => if b.1 = T then match pyIdx rows (-2) with
    | none => .error "IndexError"
    | some a => .ok [(a, b)]
    else .ok []

/-- What to collect: the window of times, or the last rectangle at the given horizon. -/
inductive Sel (K : Type) where
  | window (lo hi : K)
  | last (T : K)

/-- Lines 46-71: the rectangles of one agent in one node. -/
def select (sel : Sel K) (trace : Dict String (List (Row K))) (agent : String) : Except String (List (Row K × Row K)) :=
  match sel, Dict.get? trace agent with
  | .window _ _, none => .ok []
  | .window lo hi, some rows => window lo hi rows
  | .last _, none => .error "KeyError"
  | .last T, some rows => lastRect T rows

/-- The loop over the agents, lines 38-71: the enumerations and, for every agent, the vertices of its rectangles. -/
def agentStep (sel : Sel K) (n : FNode K) (st : Dict String Enum × List (List (List K))) (agent : String) :
    Except String (Dict String Enum × List (List (List K))) :=
  match Dict.get? n.mode agent, Dict.get? st.1 agent with
  | some ms, some d =>
    (select sel n.trace agent).map fun rs =>
      (Dict.set st.1 agent (numberModes d ms),
       st.2 ++ [rs.flatMap (fun r => [withModes (numberModes d ms) ms r.1, withModes (numberModes d ms) ms r.2])])
  | _, _ => .error "KeyError"

/-- Lines 74-78: the vertices of one agent are appended to those composed so far. -/
def compose (acc : Option (List (List K))) (rn : List (List K)) : Except String (Option (List (List K))) :=
  if rn = [] then .ok acc
  else if rn.length ≤ (acc.getD (List.replicate rn.length [])).length then
    .ok (some (List.zipWith (· ++ ·) (acc.getD (List.replicate rn.length [])) rn ++ (acc.getD (List.replicate rn.length [])).drop rn.length))
  else .error "IndexError"

/-- Lines 80-81: a node without any rectangle is not added. -/
def addNode (reached : List (List (List K))) : Option (List (List K)) → List (List (List K))
  | none => reached
  | some c => reached ++ [c]

/-- The loop over the nodes, lines 34-81. -/
def nodeStep (sel : Sel K) (agents : List String) (st : Dict String Enum × List (List (List K))) (n : FNode K) :
    Except String (Dict String Enum × List (List (List K))) :=
  (agents.foldlM (agentStep sel n) (st.1, [])).bind fun q =>
    (q.2.foldlM compose none).map fun c => (q.1, addNode st.2 c)

/-- Lines 28-33: the horizon is the last time of the first leaf. -/
def horizon (root : RTree (FNode K)) (agents : List String) : Except String K :=
  match (leafNodes root).head?, agents.head? with
  | some l, some a => match Dict.get? l.label.trace a with
    | none => .error "KeyError"
    | some rows => match pyIdx rows (-1) with
      | none => .error "IndexError"
      | some r => .ok r.1
  | _, _ => .error "IndexError"

/-- `reach_at_fix(tree, t_lower, t_upper)`, lines 22-83. -/
def collect (root : RTree (FNode K)) (sel : Sel K) : Except String (List (List (List K))) :=
  (((allNodes root).map RTree.label).foldlM (nodeStep sel root.label.agents) (root.label.agents.map (fun a => (a, [("_index", 0)])), [])).map Prod.snd

/-- `reach_at_fix(tree)` and `reach_at_fix(tree, t_lower, t_upper)`. -/
def reachAt (root : RTree (FNode K)) (bounds : Option (K × K)) : Except String (List (List (List K))) :=
  match bounds with
  | none => (horizon root root.label.agents).bind fun T => collect root (.last T)
  | some (lo, hi) => collect root (.window lo hi)

/-- Formulas over the real variables `P[0], P[1], ...`. -/
inductive Fm (K : Type) where
  | tt | ff
  | and (a b : Fm K)
  | or (a b : Fm K)
  | not (a : Fm K)
  | ge (j : Nat) (c : K)
  | le (j : Nat) (c : K)

/-- Meaning of the formulas. -/
def Fm.Holds (p : Nat → K) : Fm K → Prop
  | .tt => True
  | .ff => False
  | .and a b => a.Holds p ∧ b.Holds p
  | .or a b => a.Holds p ∨ b.Holds p
  | .not a => ¬ a.Holds p
  | .ge j c => c ≤ p j
  | .le j c => p j ≤ c

/-- Lines 99-100: one coordinate. -/
def boxStep (lo hi : List K) (f : Fm K) (j : Nat) : Except String (Fm K) :=
  match lo[j]?, hi[j]? with
  | some l, some u => .ok (.and f (.and (.ge j l) (.le j u)))
  | _, _ => .error "IndexError"

/-- Lines 97-100: the formula of one rectangle. -/
def boxFm (n : Nat) (lo hi : List K) : Except String (Fm K) := (List.range n).foldlM (boxStep lo hi) Fm.tt

/-- Lines 96-101: one rectangle of a node. -/
def rectStep (n : Nat) (vs : List (List K)) (f : Fm K) (i : Nat) : Except String (Fm K) :=
  match vs[i]?, vs[i + 1]? with
  | some lo, some hi => (boxFm n lo hi).map (fun g => Fm.or f g)
  | _, _ => .error "IndexError"

/-- Lines 94-101: the rectangles of one node. -/
def nodeFm (n : Nat) (f : Fm K) (vs : List (List K)) : Except String (Fm K) := (pyRange vs.length 2).foldlM (rectStep n vs) f

/-- Lines 93-101: the union of all rectangles. -/
def unionFm (n : Nat) (reached : List (List (List K))) : Except String (Fm K) := reached.foldlM (nodeFm n) Fm.ff

/-- `contain_all_fix`, lines 86-115. -/
def containAll (solver : Fm K → Bool) (r1 r2 : List (List (List K))) : Except String Bool :=
  match r1.head?.bind List.head? with
  | none => .error "TypeError"
  | some v => (unionFm v.length r1).bind fun f1 => (unionFm v.length r2).map fun f2 => solver (.and f1 (.not f2))

/-- `fixed_points_fix`, lines 117-120. -/
def fixedPoints (solver : Fm K → Bool) (root : RTree (FNode K)) (T step : K) : Except String Bool :=
  (reachAt root none).bind fun r1 => (reachAt root (some (0, T - step + step * (1 / 100)))).bind fun r2 => containAll solver r1 r2

end Verif.Fix
