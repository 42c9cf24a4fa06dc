import Verif.Model.FixedPoint
import Verif.Spec.ATree

/-! When the states at the end of the horizon are covered by earlier states. -/

set_option autoImplicit false

namespace Verif.Fix.Spec

open Verif.Spec Verif.Fix

variable {K : Type} [Field K] [LinearOrder K]

/-- Consecutive pairs: the rectangles of a tube (lower and upper row). -/
def pairs {α : Type} : List α → List (α × α)
  | a :: b :: l => (a, b) :: pairs l
  | _ => []

/-- Rectangles of the agent in the node, in order of time. -/
def rects (n : FNode K) (a : String) : List (Row K × Row K) := pairs ((Dict.get? n.trace a).getD [])

/-- The nodes of the tree. -/
def nodesOf (root : RTree (FNode K)) : List (FNode K) := (RTree.subs root).map RTree.label

/-- The point lies in the rectangle. -/
def In (r : Row K × Row K) (x : List K) : Prop := List.Forall₂ (· ≤ ·) r.1.2 x ∧ List.Forall₂ (· ≤ ·) x r.2.2

/-- The states of the agents (in order) lie in the last rectangles of the node, which end at time `T`. -/
def AtEnd (agents : List String) (T : K) (n : FNode K) (x : List (List K)) : Prop :=
  List.Forall₂ (fun a xa => ∃ r, (rects n a).getLast? = some r ∧ r.2.1 = T ∧ In r xa) agents x

/-- The states of the agents lie in the `i`-th rectangles of the node, which are between times `lo` and `hi`. -/
def Within (agents : List String) (lo hi : K) (n : FNode K) (i : Nat) (x : List (List K)) : Prop :=
  List.Forall₂ (fun a xa => ∃ r, (rects n a)[i]? = some r ∧ lo ≤ r.1.1 ∧ r.2.1 ≤ hi ∧ In r xa) agents x

/-- Every combination of states at the end of the horizon `T` was covered, in the same modes, by the rectangles of a node up to time `tmax`. -/
def Covered (root : RTree (FNode K)) (agents : List String) (T tmax : K) : Prop :=
  ∀ n ∈ nodesOf root, ∀ x, AtEnd agents T n x →
    ∃ n' ∈ nodesOf root, (∀ a ∈ agents, Dict.get? n'.mode a = Dict.get? n.mode a) ∧ ∃ i, Within agents 0 tmax n' i x

/-- Trees as computed by `verify` with tubes in continuous time: all agents have tubes over the same times, one rectangle per step. -/
structure Good (root : RTree (FNode K)) (agents : List String) (dim mdim : String → Nat) : Prop where
  agents_eq : root.label.agents = agents
  nonempty : agents ≠ []
  nodup : agents.Nodup
  trace : ∀ n ∈ nodesOf root, ∀ a ∈ agents, ∃ rows, Dict.get? n.trace a = some rows ∧ 2 ≤ rows.length ∧ 2 ∣ rows.length ∧ (∀ r ∈ rows, r.2.length = dim a) ∧
    (∀ p ∈ pairs rows, p.1.1 < p.2.1) ∧ (pairs rows).Pairwise (fun p q => p.1.1 ≤ q.1.1 ∧ p.2.1 ≤ q.2.1)
  mode : ∀ n ∈ nodesOf root, ∀ a ∈ agents, ∃ ms, Dict.get? n.mode a = some ms ∧ ms.length = mdim a ∧ "_index" ∉ ms
  aligned : ∀ n ∈ nodesOf root, ∀ a ∈ agents, ∀ b ∈ agents, (rects n a).map (fun r => (r.1.1, r.2.1)) = (rects n b).map (fun r => (r.1.1, r.2.1))

end Verif.Fix.Spec
