import Verif.Model.Sensor
import Mathlib.Data.List.Forall2

/-! What a sensor should show (C48): the values of the ego agent under `ego.`, and for each variable of the others the list of
their values, in one order of agents for all variables. -/

set_option autoImplicit false

namespace Verif.Sns

variable {C D V : Type}

/-- The named values of an agent: continuous variables. -/
def contPairs (df : Def) (v : AgentState C D) : List (String × C) := df.cont.zip v.cont

/-- The named values of an agent: discrete variables and static parameters. -/
def discPairs (df : Def) (v : AgentState C D) : List (String × D) := df.disc.zip v.mode ++ df.static.zip v.static

/-- An agent fits a state definition: one value per name. -/
structure Fits (df : Def) (v : AgentState C D) : Prop where
  cont : v.cont.length = df.cont.length
  mode : v.mode.length = df.disc.length
  static : v.static.length = df.static.length

/-- A dictionary shows exactly the values of the ego agent and, under the name of the argument, for each variable the
list of the values of the other agents, in the order of the agents. -/
structure Shows (d : Dict String (Val V)) (own : List (String × V)) (arg : String) (names : List String) (others : List (List (String × V))) : Prop where
  ego : ∀ k v, (k, v) ∈ own → Dict.get? d ("ego" ++ "." ++ k) = some (.one v)
  lists : others ≠ [] → ∀ k ∈ names, ∃ l, Dict.get? d (arg ++ "." ++ k) = some (.many l) ∧ List.Forall₂ (fun ps v => (k, v) ∈ ps) others l
  only : ∀ key x, Dict.get? d key = some x → (∃ k v, (k, v) ∈ own ∧ key = "ego" ++ "." ++ k) ∨ (others ≠ [] ∧ ∃ k ∈ names, key = arg ++ "." ++ k)

end Verif.Sns
