import Verif.Model.StarGuard
import Verif.Spec.Guard
import Verif.Spec.StarSolver

/-! What guards mean for star sets. -/

set_option autoImplicit false

namespace Verif.StarGrd.Spec

open Verif.Grd Verif.Grd.Spec Verif.Stars

/-- The agents: the variables of the agent itself and its star set; the name of the list of other agents, their variables and star sets. -/
structure Agents (K : Type) where
  vars : List String
  star : StarSet K
  list : String
  ovars : List String
  stars : List (StarSet K)

variable {K : Type} [Field K] [LinearOrder K]

/-- The state of every agent is a point of its star set. -/
def InStars (w : Agents K) (ρ : State K) : Prop :=
  (∃ x, InStar w.star x ∧ ∀ (d : Nat) (v : String), w.vars[d]? = some v → ρ (.attr "ego" v) = .num (x d)) ∧
  ∀ (i : Nat) (s : StarSet K), w.stars[i]? = some s →
    ∃ x, InStar s x ∧ ∀ (d : Nat) (v : String), w.ovars[d]? = some v → ρ (.elem w.list i v) = .num (x d)

/-- The star sets fit the variables and have points. -/
structure Proper (w : Agents K) : Prop where
  dim : w.star.center.len = w.vars.length
  dims : ∀ s ∈ w.stars, s.center.len = w.ovars.length
  point : ∃ x, InStar w.star x
  points : ∀ s ∈ w.stars, ∃ x, InStar s x

/-- The guard only has variables of these agents. -/
def Mentions (w : Agents K) (f : Fml K) : Prop :=
  ∀ k ∈ keysF f, (∃ v ∈ w.vars, k = .attr "ego" v) ∨ (∃ i < w.stars.length, ∃ v ∈ w.ovars, k = .elem w.list i v)

/-- The quantities that occur in a query: coordinates, and coefficients of basis vectors. -/
inductive Slot where
  | ego (d : Nat)
  | other (i d : Nat)
  | egoCoef (j : Nat)
  | otherCoef (i j : Nat)
deriving DecidableEq

/-- The name of a quantity in the query. -/
def slotName (w : Agents K) : Slot → Text
  | .ego d => "ego_".toList ++ (w.vars.getD d "").toList
  | .other i d => elemText w.list.toList i ++ '_' :: (w.ovars.getD d "").toList
  | .egoCoef j => "ego_alpha_".toList ++ Nat.toDigits 10 (j + 1)
  | .otherCoef i j => elemText w.list.toList i ++ "_alpha_".toList ++ Nat.toDigits 10 (j + 1)

/-- All quantities. -/
def slots (w : Agents K) : List Slot :=
  (List.range w.vars.length).map .ego ++ (List.range w.stars.length).flatMap (fun i => (List.range w.ovars.length).map (.other i)) ++
  (List.range w.star.basis.rows).map .egoCoef ++
  (List.range w.stars.length).flatMap (fun i => (List.range (w.stars.getD i w.star).basis.rows).map (.otherCoef i))

/-- Names are identifiers that do not lead to confusion: no dots; different quantities have different names in the query; `ego` is not part of the
name of a variable of another agent, and `tmp_variable` not of the list. -/
structure Unmistakable (w : Agents K) : Prop where
  dots : (∀ v ∈ w.vars, '.' ∉ v.toList) ∧ (∀ v ∈ w.ovars, '.' ∉ v.toList) ∧ '.' ∉ w.list.toList
  apart : ((slots w).map (slotName w)).Nodup
  ego : ∀ v ∈ w.ovars, ¬ "ego".toList <:+: w.list.toList ++ '_' :: v.toList ∧
    ∀ i < w.stars.length, ¬ "ego".toList <:+: elemText w.list.toList i ++ '_' :: v.toList
  tmp : ∀ i < w.stars.length, ¬ "tmp_variable".toList <:+: elemText w.list.toList i

/-- What is sensed: `before` are the other agents that come before the agent itself in the scenario. -/
def sensed (w : Agents K) (before : Nat) : Dict Text (Entry K) :=
  senseStars (w.vars.map String.toList) w.list.toList (w.ovars.map String.toList)
    ((w.stars.take before).map (fun s => (false, s)) ++ (true, w.star) :: (w.stars.drop before).map (fun s => (false, s)))

/-! ### The solver -/

/-- A constraint holds for values of the names. -/
def Con.Holds (σ : Text → K) : Con K → Prop
  | .eq c ts y => c + (ts.map (fun t => t.1 * σ t.2)).sum = σ y
  | .le ts b => (ts.map (fun t => t.1 * σ t.2)).sum ≤ b

/-- The state given by values of the names. -/
def stateOf (σ : Text → K) : State K := fun k => .num (σ (under (keyText k)))

/-- The solver's positive and negative answers to well-formed queries are right. -/
def SolverCorrect (W : World K) (S : StarSolver K) : Prop :=
  ∀ z cs, z.wf = true → (S z cs = .sat → ∃ σ : Text → K, (∀ c ∈ cs, Con.Holds σ c) ∧ evZ W (stateOf σ) z) ∧
    (S z cs = .unsat → ∀ σ : Text → K, (∀ c ∈ cs, Con.Holds σ c) → ¬ evZ W (stateOf σ) z)

/-- The solver never gives up. -/
def SolverComplete (S : StarSolver K) : Prop := ∀ z cs, z.wf = true → S z cs ≠ .unknown

end Verif.StarGrd.Spec
