import Verif.Model.Tree

/-!
`AnalysisTree.contains` and `is_equal` (verse/analysis/analysis_tree.py:319-450, 525-530).

Simplifications
* `portion.Interval`s that occur are finite unions of closed intervals, kept sorted and disjoint by the library: a list of
  pairs `lower ≤ upper`. `portion.closed(a, b)` with `a > b` is the empty interval.
* the order of `list(other_agents)` (a `set`) is arbitrary; here it is the order of the agents in the other tree's root, and
  theorems quantify over all such trees.
* `types[0] == "simtrace"` (line 339) compares a member of a plain `Enum` with a string, which is `False` in Python, so the
  branch for simulation traces (340-364) is dead and not modelled.
* `round(·, 10)` and `round(·)` are parameters.
-/

set_option autoImplicit false

namespace Verif.ATree
open Verif.Spec

/-- `portion.Interval`: sorted disjoint closed intervals -/
abbrev Cell := List (ℚ × ℚ)

/-- `portion.closed(a, b)` -/
def closed (a b : ℚ) : Cell := if a ≤ b then [(a, b)] else []

/-- add one closed interval to a sorted disjoint union, merging everything it touches (`portion`'s normalisation) -/
def addI : ℚ × ℚ → Cell → Cell
  | x, [] => [x]
  | x, y :: l =>
    if x.2 < y.1 then x :: y :: l
    else if y.2 < x.1 then y :: addI x l
    else addI (min x.1 y.1, max x.2 y.2) l

/-- `portion.Interval.union` -/
def union (a b : Cell) : Cell := b.foldl (fun c x => addI x c) a

/-- `.apply(lambda x: x.replace(lower=v - tol, upper=v + tol))` (444-446) -/
def bloat (tol : ℚ) (c : Cell) : Cell :=
  ((c.map (fun x => (x.1 - tol, x.2 + tol))).filter (fun x => decide (x.1 ≤ x.2))).foldl (fun c x => addI x c) []

/-- `a in b` for intervals: every atomic interval of `a` lies in one of `b` -/
def inCell (a b : Cell) : Bool := a.all (fun x => b.any (fun y => decide (y.1 ≤ x.1) && decide (x.2 ≤ y.2)))

/-- What `contains` reads of a node. -/
structure CNode where
  agents : List String
  trace  : Dict String (List (List ℚ))
  start  : ℚ
  ntype  : NType

/-- rounding functions: `round(·, 10)` and `round(·)` -/
structure Rnd where
  r10 : ℚ → ℚ
  int : ℚ → ℤ

/-- `l[i]` for a natural number `i` -/
def idx {α : Type} (l : List α) (i : Nat) : Except Err α :=
  match l[i]? with
  | some a => .ok a
  | none => .error .indexError

/-- `l[i]` with Python's negative indices -/
def idxZ {α : Type} (l : List α) (i : Int) : Except Err α :=
  match pyIdx l i with
  | some a => .ok a
  | none => .error .indexError

/-- `d[k]` -/
def key {α : Type} (d : Dict String α) (k : String) : Except Err α :=
  match Dict.get? d k with
  | some a => .ok a
  | none => .error .keyError

/-- `l[:i]` -/
def sliceTo {α : Type} (l : List α) (i : Int) : List α := if 0 ≤ i then l.take i.toNat else l.take (l.length + i).toNat

/-- `l[i:]` -/
def sliceFrom {α : Type} (l : List α) (i : Int) : List α := if 0 ≤ i then l.drop i.toNat else l.drop (l.length + i).toNat

/-- `all(...)` of a generator that may raise: stops at the first `False`. -/
def allM {α : Type} (f : α → Except Err Bool) : List α → Except Err Bool
  | [] => .ok true
  | a :: l => do
    let b ← f a
    if b then allM f l else .ok false

/-- Ranges per agent, time step and dimension. -/
abbrev Ranges := Dict String (List (List Cell))

/-- `portion.closed(n.trace[aid][i][j], n.trace[aid][i + 1][j])` (377) -/
def cellAt (rows : List (List ℚ)) (i j : Nat) : Except Err Cell := do
  let r ← idx rows i
  let a ← idx r j
  let r' ← idx rows (i + 1)
  let b ← idx r' j
  .ok (closed a b)

/-- `cur` (373-383) -/
def curRanges (m : List String) (cont traceLen : Nat) (n : CNode) : Except Err Ranges :=
  m.mapM (fun aid => do
    let rows ← key n.trace aid
    let c ← (List.range ((traceLen + 1) / 2)).mapM (fun k => (List.range cont).mapM (fun j => cellAt rows (2 * k) j))
    .ok (aid, c))

/-- one operand of the `reduce` (406-410) -/
def pick (child : List (List Cell)) (len : Nat) (i : Int) (j : Nat) : Except Err Cell :=
  if 0 ≤ i ∧ i < len then do
    let r ← idx child i.toNat
    idx r j
  else .ok []

/-- `reduce(portion.Interval.union, ...)` (403-412) over a non-empty list -/
def reduceUnion : List Cell → Except Err Cell
  | [] => .error .valueError
  | c :: cs => .ok (cs.foldl union c)

/-- `combined` (400-418): `kids` are the children's ranges with `bias_list` and `trace_len_list` -/
def combine (m : List String) (cont : Nat) (kids : List (Ranges × Int × Nat)) (traceLen : Nat) : Except Err Ranges :=
  m.mapM (fun aid => do
    let c ← (List.range traceLen).mapM (fun (i : Nat) => (List.range cont).mapM (fun j => do
      let ops ← kids.mapM (fun k => do
        let ch ← key k.1 aid
        pick ch k.2.2 ((i : Int) - k.2.1) j)
      reduceUnion ops))
    .ok (aid, c))

/-- `overlap` and the final concatenation (419-435) -/
def stitch (m : List String) (cont : Nat) (cur combined : Ranges) (ov : Int) : Except Err Ranges :=
  m.mapM (fun aid => do
    let cu ← key cur aid
    let co ← key combined aid
    let mid ← (List.range ov.toNat).mapM (fun (i : Nat) => (List.range cont).mapM (fun j => do
      let r ← idxZ cu ((i : Int) - ov)
      let a ← idx r j
      let r' ← idx co i
      let b ← idx r' j
      .ok (union a b)))
    .ok (aid, sliceTo cu (-ov) ++ mid ++ sliceFrom co ov))

/-- `n.trace[m0][i][0]` -/
def rowTime (n : CNode) (m0 : String) (i : Int) : Except Err ℚ := do
  let rows ← key n.trace m0
  let r ← idxZ rows i
  idx r 0

/-- `round(x / step)` -/
def divRound (R : Rnd) (x step : ℚ) : Except Err Int :=
  if step = 0 then .error .zeroDivision else .ok (R.int (x / step))

/-- `min` of a list -/
def minOf : List ℚ → Except Err ℚ
  | [] => .error .valueError
  | x :: xs => .ok (xs.foldl min x)

/-- lines 388-435 for a node with children `kids` (start time and ranges) -/
def mergeKids (R : Rnd) (m : List String) (m0 : String) (cont : Nat) (n : CNode) (cur : Ranges) (kids : List (ℚ × Ranges)) :
    Except Err Ranges := do
  let last ← rowTime n m0 (-1)
  let prev ← rowTime n m0 (-2)
  let step := R.r10 (last - prev)
  let minStart ← minOf (kids.map Prod.fst)
  let bias ← kids.mapM (fun k => divRound R (k.1 - minStart) step)
  let lens ← kids.mapM (fun k => do
    let l ← key k.2 m0
    .ok l.length)
  let traceLen := lens.foldl max 0
  let combined ← combine m cont ((kids.map Prod.snd).zip (bias.zip lens)) traceLen
  let ov ← divRound R (last - minStart) step
  stitch m cont cur combined ov

mutual
/-- `collect_ranges` (368-435) -/
def collect (R : Rnd) (m : List String) (m0 : String) (cont : Nat) : RTree CNode → Except Err Ranges
  | .node n ts => do
    let rows ← key n.trace m0
    let cur ← curRanges m cont rows.length n
    let kids ← collectL R m m0 cont ts
    if kids.isEmpty then .ok cur else mergeKids R m m0 cont n cur kids
def collectL (R : Rnd) (m : List String) (m0 : String) (cont : Nat) : List (RTree CNode) → Except Err (List (ℚ × Ranges))
  | [] => .ok []
  | t :: ts => do
    let r ← collect R m m0 cont t
    let rs ← collectL R m m0 cont ts
    .ok ((t.label.start, r) :: rs)
end

/-- `contains` (319-450), `strict = True` or `False` -/
def contains (R : Rnd) (strict : Bool) (tol : ℚ) (this other : RTree CNode) : Except Err Bool := do
  let types := ((allNodes this).map (fun n => n.label.ntype) ++ (allNodes other).map (fun n => n.label.ntype)).dedup
  if types.length ≠ 1 then .error .assertion
  else
    let cur := this.label.agents
    let m := other.label.agents
    if !(if strict then m.all (fun a => cur.contains a) && cur.all (fun a => m.contains a) else m.all (fun a => cur.contains a)) then
      .ok false
    else do
      let m0 ← idx m 0
      let rows0 ← key other.label.trace m0
      let row0 ← idx rows0 0
      let cont := row0.length
      let a ← collect R m m0 cont this
      let b ← collect R m m0 cont other
      let la ← key a m0
      let lb ← key b m0
      if lb.length > la.length then .error .assertion
      else
        allM (fun aid => allM (fun i => allM (fun j => do
          let x ← key b aid
          let x ← idx x i
          let x ← idx x j
          let y ← key a aid
          let y ← idx y i
          let y ← idx y j
          .ok (inCell x (bloat tol y))) (List.range cont)) (List.range lb.length)) m

/-- `is_equal` (525-530), default tolerance `eps` (`_EPSILON`) -/
def isEqual (R : Rnd) (eps : ℚ) (this other : RTree CNode) : Except Err Bool := do
  let a ← contains R true eps this other
  if a then contains R true eps other this else .ok false

end Verif.ATree
