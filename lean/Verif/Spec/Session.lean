import Verif.Model.Session
import Verif.Spec.Scenario
import Mathlib.Algebra.Order.Field.Basic

/-! What a scenario says about an agent, and what it means that a tree starts accordingly. -/

set_option autoImplicit false

namespace Verif.Scn.Spec

open Verif.Scn

variable {K : Type}

/-- The scenario has the initial set `rows`, the mode and the parameters for the agent. -/
def Knows (st : St K MVal) (id : String) (rows : List (List K)) (mode static uncertain : List MVal) : Prop :=
  (∃ m, Dict.get? st.scen.init id = some m ∧ deref st.heap m = some rows) ∧ Dict.get? st.scen.mode id = some mode ∧
    Dict.get? st.scen.static id = some static ∧ Dict.get? st.scen.uncertain id = some uncertain

/-- The agent has its own initial condition, and the scenario has none for it. -/
def OwnInit (st : St K MVal) (id : String) (rows : List (List K)) (mode static uncertain : List MVal) : Prop :=
  Dict.get? st.scen.init id = none ∧ ∃ a m, Dict.get? st.scen.agents id = some a ∧ a.initCont = some m ∧ deref st.heap m = some rows ∧
    a.initDisc = some mode ∧ a.static = static ∧ a.uncertain = uncertain

/-- In the root, the agent is in the given mode and has the given parameters. -/
def RootIs {I : Type} (root : Root K I) (id : String) (x : I) (mode static uncertain : List MVal) : Prop :=
  Dict.get? root.init id = some x ∧ Dict.get? root.mode id = some (mode.map modeName) ∧
    (∃ names, Dict.get? root.static id = some names ∧ static = names.map MVal.enum) ∧ Dict.get? root.uncertain id = some uncertain

/-- `x` is a state in the rectangle whose corners are the first two rows (the rows are in order). -/
def StateIn [LE K] (rows : List (List K)) (x : List K) : Prop :=
  ∃ lo hi rest, rows = lo :: hi :: rest ∧ (List.Forall₂ (· ≤ ·) lo hi → List.Forall₂ (· ≤ ·) lo x ∧ List.Forall₂ (· ≤ ·) x hi)

/-- The generator gives as many numbers as asked for, all in `[0, 1)`. -/
def Fair {G : Type} [Zero K] [One K] [LE K] [LT K] (R : Rng G K) : Prop := ∀ n g, (R.draw n g).1.length = n ∧ ∀ u ∈ (R.draw n g).1, 0 ≤ u ∧ u < 1

/-- The answers of the tool depend only on the root and the arguments: no caches, no use of earlier runs. -/
def Memoryless {I M Tree Args : Type} (tool : Tool K I M Tree Args) : Prop :=
  ∀ m m' root args n n' past past', (tool m root args n past).map Prod.fst = (tool m' root args n' past').map Prod.fst

end Verif.Scn.Spec
