import Verif.Spec.FixedPoint
import Verif.Model.Diams

/-! Distances between states that are reached at the same time. -/

set_option autoImplicit false

namespace Verif.Diams.Spec
open Verif.Spec Verif.Fix Verif.Fix.Spec

variable {K : Type} [Field K] [LinearOrder K]

/-- The Manhattan distance. -/
def dist (x y : List K) : K := ((x.zip y).map fun p => |p.1 - p.2|).sum

/-- In a tree of reach tubes, the states of the agents (in order) lie in the rectangles of the node from step `k` to step `k + 1`. -/
def InStep (agents : List String) (step : K) (k : Nat) (n : FNode K) (x : List (List K)) : Prop :=
  List.Forall₂ (fun a xa => ∃ r ∈ rects n a, r.1.1 = k * step ∧ r.2.1 = (k + 1) * step ∧ In r xa) agents x

/-- All rectangles are from one multiple of the time step to the next, no two from the same one, and not empty. -/
structure Stepped (root : RTree (FNode K)) (agents : List String) (step : K) : Prop where
  times : ∀ n ∈ nodesOf root, ∀ a ∈ agents, ∀ r ∈ rects n a, ∃ m : Nat, r.1.1 = m * step ∧ r.2.1 = (m + 1) * step
  once : ∀ n ∈ nodesOf root, ∀ a ∈ agents, (rects n a).Pairwise fun p q => p.1.1 < q.1.1
  proper : ∀ n ∈ nodesOf root, ∀ a ∈ agents, ∀ r ∈ rects n a, List.Forall₂ (· ≤ ·) r.1.2 r.2.2

/-- The nodes from the root to a node of the tree. -/
inductive Path : RTree (FNode K) → List (FNode K) → Prop
  | here (d : FNode K) (ts : List (RTree (FNode K))) : Path (.node d ts) [d]
  | step (d : FNode K) (ts : List (RTree (FNode K))) (t : RTree (FNode K)) (p : List (FNode K)) : t ∈ ts → Path t p → Path (.node d ts) (d :: p)

/-- In a simulation, the last node of the path has the state `s` (of all its agents together) at time `t`. -/
def StateAt (p : List (FNode K)) (t : K) (s : List K) : Prop :=
  ∃ n, p.getLast? = some n ∧ (∃ tr ∈ n.trace, ∃ r ∈ tr.2, r.1 = t) ∧
    s = n.trace.flatMap fun tr => (tr.2.filter fun r => decide (r.1 = t)).flatMap Prod.snd

/-- The modes along a path. -/
def history (p : List (FNode K)) : List (Dict String (List String)) := p.map FNode.mode

/-- The states of the simulations at time `t`, after the same modes. -/
def Group (sims : List (RTree (FNode K))) (h : List (Dict String (List String))) (t : K) (s : List K) : Prop :=
  ∃ sim ∈ sims, ∃ p, Path sim p ∧ history p = h ∧ StateAt p t s

/-- The smallest rectangle around the points. -/
def Hull (S : List K → Prop) (lo hi : List K) : Prop :=
  (∀ s, S s → List.Forall₂ (· ≤ ·) lo s ∧ List.Forall₂ (· ≤ ·) s hi) ∧
    (∀ (i : Nat) (c : K), lo[i]? = some c → ∃ s, S s ∧ s[i]? = some c) ∧ ∀ (i : Nat) (c : K), hi[i]? = some c → ∃ s, S s ∧ s[i]? = some c

/-- What the library makes of a path. -/
def keyOf (hash : String → Int) (p : List (FNode K)) : Option Int := p.foldl (fun h n => some (histKey hash h n)) none

end Verif.Diams.Spec
